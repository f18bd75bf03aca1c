{"id": "C01", "title": "Request splitting loses nothing", "statement": "For every request string, the target, query and fragment that the resolver extracts, concatenated in that order, are exactly the request string.", "quantifier": "all strings (any Unicode characters, any length)", "why_tests_cant": "The parser is a character state machine; a test checks a dozen literals while a dropped or duplicated character can hide behind any mix of '#' and '?'.", "anchors": ["src/parse.rs:Request::parse_identifier", "src/parse.rs:Resolver::parse"]}
{"id": "C02", "title": "Request splitting is canonical", "statement": "The target contains no '?' and contains '#' at most as its first character (a leading '#' belongs to the target, so a request with empty target and query has an empty fragment); the query is empty or starts with '?' and contains no '#'; the fragment is empty or starts with '#'. Among all ways of cutting the request in three with these shapes, the one returned is the only one.", "quantifier": "all strings", "why_tests_cant": "Uniqueness is a statement about all decompositions of all strings.", "anchors": ["src/parse.rs:Request::parse_identifier"]}
{"id": "C03", "title": "Request classification follows the prefix", "statement": "A target is treated as relative exactly when it is empty, '.', '..' or starts with './' or '../'; as internal exactly when it starts with '#'; as POSIX-absolute exactly when it starts with '/'; as Windows-absolute exactly when it is a drive letter and ':' alone or followed by '/' or '\\'; and as a bare module name in all other cases.", "quantifier": "all strings", "why_tests_cant": "The Windows case is decided by an automaton over 104 patterns searching anywhere in the string; tests cover eleven strings.", "anchors": ["src/kind.rs:Resolver::get_target_kind"]}
{"id": "C04", "title": "Built-in module test is exact membership", "statement": "is_build_in_module answers true exactly for the names of Node 16's built-in modules, and for nothing else (no prefix, suffix or case variation of a name).", "quantifier": "all strings", "why_tests_cant": "Negative membership ranges over infinitely many strings.", "anchors": ["src/kind.rs:BUILT_IN_MODULE_SET", "src/kind.rs:Resolver::is_build_in_module"]}
{"id": "C05", "title": "Lexical normalisation removes every dot component", "statement": "normalize_path_without_link returns a path with no '.' and no '..' component, and absolute paths stay absolute.", "quantifier": "all paths", "why_tests_cant": "Paths of any depth with any interleaving of '.', '..' and repeated separators.", "anchors": ["src/normalize.rs:Resolver::normalize_path_without_link"]}
{"id": "C06", "title": "Lexical normalisation is idempotent", "statement": "Normalising a normalised path returns it unchanged, character for character.", "quantifier": "all paths", "why_tests_cant": "Ranges over all paths.", "anchors": ["src/normalize.rs:Resolver::normalize_path_without_link"]}
{"id": "C07", "title": "Lexical normalisation means what a symlink-free directory walk means", "statement": "For an absolute path, the normalised path names the location reached by walking the components of the original one at a time from the root, where '..' steps to the parent and stays at the root; it never climbs above the root.", "quantifier": "all absolute paths", "why_tests_cant": "An agreement of two semantics over paths of unbounded depth.", "anchors": ["src/normalize.rs:Resolver::normalize_path_without_link"]}
{"id": "C08", "title": "A successful resolution names an existing file", "statement": "Whenever resolve returns an Info result with symlinks off, the returned path is the lexical normalisation of a path that is a regular file; with symlinks on it is the canonical path of a regular file. This holds whatever is in the caches, for every options value and after every history of earlier calls and file system changes.", "quantifier": "all options, file systems, base paths, requests, cache contents, histories and interleavings of cache operations", "why_tests_cant": "Success can come out of any of eight plugins and any cache state.", "anchors": ["src/lib.rs:Resolver::resolve", "src/resolve.rs:resolve_as_file", "src/plugin/extensions.rs:apply", "src/normalize.rs:normalize_result"]}
{"id": "C09", "title": "The returned request is fully consumed", "statement": "Whenever resolve returns Info, request.target is empty, so the debug assertion on it can never fire.", "quantifier": "all options, file systems, paths, requests, cache contents", "why_tests_cant": "Needs every success path of every plugin.", "anchors": ["src/normalize.rs:normalize_result", "src/resolve.rs:resolve_as_modules", "src/plugin/mod.rs:apply"]}
{"id": "C10", "title": "File candidates are tried in documented order", "statement": "For a path to a file without redirects, the resolver returns the path itself if it is a file and extensions are not enforced, and otherwise the path with the first extension of the extensions list that makes it a file; if none does, it is not resolved as a file.", "quantifier": "all file systems, all extension lists, all paths", "why_tests_cant": "Order and completeness over lists of any length.", "anchors": ["src/resolve.rs:resolve_as_file", "src/plugin/extensions.rs:apply"]}
{"id": "C11", "title": "Enforced extensions are always used", "statement": "If enforce_extension is true (given or derived), the path of every successful resolution, before symlink/lexical normalisation, is some path with one of the configured extensions appended.", "quantifier": "all options, file systems, requests, cache contents", "why_tests_cant": "All success paths in all plugins.", "anchors": ["src/resolve.rs:resolve_as_file", "src/plugin/extensions.rs:apply"]}
{"id": "C12", "title": "enforce_extension default", "statement": "Resolver::new keeps an explicit enforce_extension and otherwise enables it exactly when the empty string is among the extensions; it changes no other option. A resolver that did not go through it, such as Resolver::default(), does the same as one that did, unless the empty string is among the extensions.", "quantifier": "all options; the comparison: all histories of calls at the same time with shared caches, and changes of files at any moment", "why_tests_cant": "All extension lists, and all histories of two systems side by side.", "anchors": ["src/lib.rs:Resolver::new", "src/lib.rs:Resolver"]}
{"id": "C13", "title": "Nearest node_modules wins", "statement": "For a bare specifier and no package description processing, the result is taken from the closest ancestor directory (starting with the base directory) whose node_modules yields one: no farther ancestor's module is returned when a nearer one resolves.", "quantifier": "all file systems, base paths of any depth, bare requests", "why_tests_cant": "Depth of the directory chain is unbounded.", "anchors": ["src/resolve.rs:resolve_as_modules"]}
{"id": "C14", "title": "Module search is exhaustive", "statement": "A bare specifier fails with the not-found error only if no node_modules directory of any ancestor of the base directory contains a candidate for it.", "quantifier": "all file systems, base paths, bare requests", "why_tests_cant": "Unbounded ancestor chains; the claim is about every directory that was skipped.", "anchors": ["src/resolve.rs:resolve_as_modules"]}
{"id": "C15", "title": "An ignored alias yields Ignored", "statement": "If the first alias entry whose key is a prefix of the request target is Ignored, and the base path has no node_modules in it, resolve returns Ignored, whatever the file system holds.", "quantifier": "all alias lists, requests, file systems, caches", "why_tests_cant": "Alias lists of any length and order.", "anchors": ["src/plugin/alias.rs:apply"]}
{"id": "C16", "title": "Aliases that do not apply change nothing", "statement": "If no alias key is a prefix of the target, or the base path lies in node_modules, resolve answers as a resolver with an empty alias list does.", "quantifier": "all alias lists, requests, file systems, caches", "why_tests_cant": "Universally quantified independence.", "anchors": ["src/plugin/alias.rs:apply", "src/lib.rs:_resolve"]}
{"id": "C17", "title": "Alias entries are tried in order, with fallback", "statement": "The first applicable alias whose rewritten request resolves decides the result; if none resolves (and none is Ignored) the request is resolved as if there were no aliases.", "quantifier": "all alias lists, requests, file systems, caches", "why_tests_cant": "Order over lists of any length, through a recursive call.", "anchors": ["src/plugin/alias.rs:apply"]}
{"id": "C18", "title": "prefer_relative tries the relative reading first and falls back", "statement": "With prefer_relative, if './'+request resolves then that is the result; otherwise the result is that of prefer_relative off.", "quantifier": "all requests, file systems, options without alias", "why_tests_cant": "Relates two runs of the resolver over all inputs.", "anchors": ["src/plugin/prefer_relative.rs:apply"]}
{"id": "C19", "title": "exports/imports key selection is longest-prefix", "statement": "For an exports object with path keys and a request './x', an exact key wins; otherwise, among the keys ending in '/' that are prefixes of the request and the keys ending in '*' whose part before '*' is a prefix, the one with the longest literal part is used (a '*' key beating a '/' key of equal length), and the rest of the request is substituted; if there is none the request is not exported. The order of keys in package.json does not matter.", "quantifier": "all exports objects with distinct keys, all requests", "why_tests_cant": "A trie walk with index arithmetic against all key sets.", "anchors": ["src/map.rs:PathTreeNode::walk", "src/map.rs:PathTreeNode::find_match", "src/map.rs:field_process"]}
{"id": "C20", "title": "Conditions are matched in written order, depth first", "statement": "In a conditional mapping, the target chosen is the first one reached by scanning keys in written order, entering those that are 'default' or in condition_names, and backtracking out of nested objects with no match. The order of condition_names is irrelevant.", "quantifier": "all condition trees of any depth, all condition sets", "why_tests_cant": "The code is an explicit stack machine with saved indices; nesting is unbounded.", "anchors": ["src/map.rs:conditional_mapping"]}
{"id": "C21", "title": "A misplaced 'default' is rejected only when reached", "statement": "conditional resolution fails with 'Default condition should be last one' exactly when the depth-first scan reaches a 'default' key that is not the last of its object before reaching a match.", "quantifier": "all condition trees, all condition sets", "why_tests_cant": "Unbounded nesting.", "anchors": ["src/map.rs:conditional_mapping"]}
{"id": "C22", "title": "Pattern substitution inserts the matched text", "statement": "For a '*' key, each '*' of the target is replaced by exactly the text of the request that the '*' matched; for a '/' key the rest of the request is appended to the target.", "quantifier": "all targets and matched texts", "why_tests_cant": "All strings, including ones with '$' or '*' in them.", "anchors": ["src/map.rs:Field::target_mapping"]}
{"id": "C23", "title": "exports targets stay inside the package", "statement": "A path returned through an exports (or relative imports) mapping never lies outside the directory of the package that declared it.", "quantifier": "all exports values, all requests, including ones with '..' and repeated '/'", "why_tests_cant": "Security property over all attacker-chosen request strings.", "anchors": ["src/map.rs:Field::check_target", "src/plugin/exports_field.rs:apply", "src/plugin/imports_field.rs:apply"]}
{"id": "C24", "title": "Imports keys are validated", "statement": "Building imports succeeds only if every key starts with '#', is longer than one character and does not start with '#/'; a '#' request is answered from the package's imports map only.", "quantifier": "all imports objects, all requests", "why_tests_cant": "All key sets.", "anchors": ["src/map.rs:ImportsField::build_field_path_tree", "src/map.rs:ImportsField::assert_request", "src/plugin/imports_field.rs:apply"]}
{"id": "C25", "title": "Exports alternatives are tried in order", "statement": "When an export maps to several targets, the first whose file exists (and which passes the containment check) is used; if none exists the request fails with 'Package path ... is not exported'.", "quantifier": "all target lists, file systems", "why_tests_cant": "Lists of any length.", "anchors": ["src/plugin/exports_field.rs:apply"]}
{"id": "C26", "title": "exports encapsulates the package", "statement": "If the closest package of a bare request inside node_modules has an exports field, a success without browser-field redirect is always one of the targets that the exports field maps the request to; a file that exports does not map is never returned.", "quantifier": "all packages with exports, all bare requests, file systems, caches", "why_tests_cant": "Universal over requests: no request may leak an unexported file.", "anchors": ["src/plugin/exports_field.rs:apply", "src/resolve.rs:resolve_as_modules"]}
{"id": "C27", "title": "browser_field off means browser is irrelevant", "statement": "With browser_field false, the browser entry of every package.json has no effect on any result.", "quantifier": "all browser values in all package.json files, all requests", "why_tests_cant": "Relates runs over all file systems.", "anchors": ["src/plugin/alias_field.rs:apply"]}
{"id": "C28", "title": "A browser entry set to false is Ignored", "statement": "With browser_field true, a relative or bare request that matches a browser key of its package mapping (transitively) to false gives Ignored.", "quantifier": "all browser maps, requests", "why_tests_cant": "Chains of any length.", "anchors": ["src/plugin/alias_field.rs:apply"]}
{"id": "C29", "title": "Browser replacement is deterministic", "statement": "The replacement chosen for a request by a package's browser map does not depend on hash-map iteration order.", "quantifier": "all browser maps, all iteration orders", "why_tests_cant": "Iteration order of std HashMap is random; a test sees one order.", "anchors": ["src/plugin/alias_field.rs:apply"]}
{"id": "C30", "title": "Main fields are tried in order", "statement": "A directory with its own package.json resolves through the first of main_fields whose value resolves relative to that directory; later main fields are interpreted relative to the same directory.", "quantifier": "all main_fields lists, package.json contents, file systems", "why_tests_cant": "Mutable state is threaded through the loop; needs all orders and failures.", "anchors": ["src/plugin/main_field.rs:apply"]}
{"id": "C31", "title": "Main files are tried in order after main fields", "statement": "If no main field resolves, a directory resolves to the first of main_files that resolves as a file in it.", "quantifier": "all main_files lists, file systems", "why_tests_cant": "Lists of any length.", "anchors": ["src/plugin/main_file.rs:apply", "src/resolve.rs:resolve_as_dir"]}
{"id": "C32", "title": "Package lookup does not depend on cache state", "statement": "On an unchanging file system, the package information found for a path is the same for every cache state reachable by any history of resolve and load_side_effects calls: the contents of the closest package.json.", "quantifier": "all histories of calls, all file systems", "why_tests_cant": "Histories of any length.", "anchors": ["src/description.rs:load_pkg_file", "src/cache.rs:ResolverCache", "src/fs.rs:read_to_string"]}
{"id": "C33", "title": "resolve is cache transparent", "statement": "On an unchanging file system, every resolve returns what a fresh resolver with the same options returns, after any history of calls.", "quantifier": "all histories, all file systems, all requests", "why_tests_cant": "Histories of any length through every plugin.", "anchors": ["src/description.rs:load_pkg_file", "src/lib.rs:resolve"]}
{"id": "C34", "title": "Concurrent resolves do not interfere", "statement": "Any number of threads may call resolve on one resolver (or on resolvers sharing a cache); on an unchanging file system, each call returns what it returns alone, for every interleaving of their cache operations.", "quantifier": "all interleavings, any number of threads, all requests", "why_tests_cant": "Schedules cannot be enumerated by tests.", "anchors": ["src/cache.rs:ResolverCache", "src/description.rs:load_pkg_file", "src/options.rs:external_cache"]}
{"id": "C35", "title": "A changed package.json is noticed", "statement": "After a package.json is changed (and its modification time advances by at least one second), the next resolve uses the new contents, for every earlier history.", "quantifier": "all histories with file system changes", "why_tests_cant": "Histories of any length.", "anchors": ["src/fs.rs:need_update", "src/description.rs:load_pkg_file"]}
{"id": "C36", "title": "Created and deleted package.json files are noticed", "statement": "After a package.json is created or deleted, the next resolve uses the closest package.json that exists then.", "quantifier": "all histories with file system changes", "why_tests_cant": "Histories of any length.", "anchors": ["src/description.rs:load_pkg_file", "src/fs.rs:need_update"]}
{"id": "C37", "title": "Sharing a cache does not change results", "statement": "Resolvers with different options that share an external cache each answer as they would with a cache of their own.", "quantifier": "all options pairs, all histories", "why_tests_cant": "Pairs of configurations and histories.", "anchors": ["src/options.rs:external_cache", "src/lib.rs:Resolver::new", "src/cache.rs:ResolverCache"]}
{"id": "C38", "title": "Parsed exports and imports trees are not mixed up", "statement": "The exports tree used for a package is always the one built from that package's exports value, whichever packages were read before.", "quantifier": "all histories, all sets of packages", "why_tests_cant": "Depends on which other packages have equal contents.", "anchors": ["src/description.rs:parse_description_file"]}
{"id": "C39", "title": "tsconfig extends is a deep default", "statement": "In an extended tsconfig, a value present in the extending file (and not null) wins over the extended file; objects are merged key by key, at every depth; values absent from the extending file come from the extended one.", "quantifier": "all JSON values, all chains of extends", "why_tests_cant": "Arbitrarily nested JSON.", "anchors": ["src/tsconfig.rs:merge", "src/tsconfig.rs:parse_file_to_value"]}
{"id": "C40", "title": "tsconfig star patterns", "statement": "A paths pattern with one '*' matches a request exactly when the request starts with the part before the star and ends with the part after it without overlap, and the text captured is what lies between.", "quantifier": "all patterns and requests", "why_tests_cant": "All strings, including multi-byte characters.", "anchors": ["src/tsconfig_path.rs:match_star"]}
{"id": "C41", "title": "tsconfig paths fall back to plain resolution", "statement": "If no mapped path resolves, or baseUrl is missing, the result is that of the resolver without tsconfig; a mapped path that resolves is preferred.", "quantifier": "all tsconfigs, requests, file systems", "why_tests_cant": "Universal over mappings.", "anchors": ["src/tsconfig_path.rs:_resolve_with_tsconfig"]}
{"id": "C42", "title": "Errors name the request", "statement": "resolve never returns the internal marker 'T0' as its error; a plain not-found failure reads \"Resolve '<request>' failed in '<path>'\" with the request and path exactly as the caller gave them.", "quantifier": "all options, requests, file systems, caches", "why_tests_cant": "Error conversion happens at several nested levels.", "anchors": ["src/lib.rs:_resolve", "src/utils.rs:raise_resolve_failed_message", "src/resolve.rs:resolve_as_modules"]}
{"id": "C43", "title": "Query and fragment survive resolution", "statement": "The query and fragment of the request are returned unchanged with the resolved path.", "quantifier": "all requests, options, file systems", "why_tests_cant": "Request values are rebuilt in six plugins.", "anchors": ["src/lib.rs:ResolveInfo::with_target", "src/parse.rs:with_target", "src/plugin/mod.rs:apply", "src/tsconfig_path.rs:_resolve_with_tsconfig"]}
{"id": "C44", "title": "resolve never panics", "statement": "resolve returns Ok or Err for every input; it does not panic.", "quantifier": "all inputs", "why_tests_cant": "Absence of panics over all inputs.", "anchors": ["src/lib.rs:resolve", "src/lib.rs:_resolve", "src/map.rs:from_json", "src/resolve.rs:resolve_as_modules"]}
{"id": "C45", "title": "resolve terminates", "statement": "resolve returns for every input; it does not loop or recurse forever.", "quantifier": "all inputs", "why_tests_cant": "Termination over all inputs.", "anchors": ["src/plugin/alias.rs:apply", "src/plugin/alias_field.rs:apply", "src/plugin/imports_field.rs:apply", "src/plugin/main_field.rs:apply", "src/description.rs:load_pkg_file", "src/tsconfig.rs:parse_file_to_value"]}
{"id": "C46", "title": "load_side_effects reports the closest description file", "statement": "load_side_effects(path) returns the description file of the closest directory at or above path that has one, with the parsed sideEffects entry of that file, or None if there is none.", "quantifier": "all file systems, absolute paths, cache states of an unchanging file system", "why_tests_cant": "Unbounded ancestor chains and histories.", "anchors": ["src/description.rs:load_side_effects", "src/description.rs:load_pkg_file"]}
{"id": "C47", "title": "sideEffects validation", "statement": "A sideEffects entry is accepted exactly when it is a boolean or an array of strings, is returned unchanged, and any other value is an error naming the file.", "quantifier": "all JSON values", "why_tests_cant": "All JSON values.", "anchors": ["src/description.rs:parse_description_file"]}
{"id": "C48", "title": "symlinks option selects the returned path form", "statement": "With symlinks the returned path is the canonicalised candidate and a canonicalisation failure is an error; without, it is the lexical normalisation and never fails. Nothing else in the result depends on the option.", "quantifier": "all inputs", "why_tests_cant": "Relates two runs over all inputs.", "anchors": ["src/normalize.rs:normalize_path", "src/normalize.rs:normalize_result"]}
{"id": "C49", "title": "Results do not depend on hash randomisation", "statement": "Two runs of the same resolve on the same file system give the same result, whatever the iteration order of hash maps.", "quantifier": "all inputs, all iteration orders", "why_tests_cant": "Randomised per process; a test sees one order.", "anchors": ["src/plugin/alias_field.rs:apply", "src/tsconfig_path.rs:get_absolute_mapping_entries"]}
{"id": "C50", "title": "description_file None switches package processing off", "statement": "With description_file None, no package.json content influences any result and resolve touches no cache.", "quantifier": "all inputs", "why_tests_cant": "Relates runs over all file systems.", "anchors": ["src/description.rs:load_pkg_file"]}
{"id": "C51", "title": "A success names a file that was there during the call", "statement": "If files change at any moment, also between two looks of one call, the path returned by a successful resolve is that of a regular file which existed at some moment while the call was in progress: its lexical normalisation, or with symlinks what canonicalize said of it at such a moment.", "quantifier": "all options, histories of calls and file system changes, interleavings of looks at files and cache operations", "why_tests_cant": "Quantifies over all moments at which files may change.", "anchors": ["src/lib.rs:resolve", "src/resolve.rs:resolve_as_file", "src/normalize.rs:normalize_result"]}
{"id": "C52", "title": "Results keep their form while files change", "statement": "Whatever changes during a call: the request of a success has an empty target, an enforced extension is there, the internal marker T0 is never returned, a failure message names request and path, and the unreachable arm of resolve, the debug assertion in normalize_result and the unwrap in load_side_effects are never reached.", "quantifier": "all options, histories and interleavings with file system changes at any moment", "why_tests_cant": "Quantifies over all moments at which files may change.", "anchors": ["src/lib.rs:resolve", "src/normalize.rs:normalize_result", "src/description.rs:load_side_effects"]}
{"id": "C53", "title": "Looking at files one by one makes no difference unless a change is noticed", "statement": "If every look of every call at a file is answered as it would have been when the call started (in particular if files change only while no call is in progress), the system goes through the same shared states and gives the same answers as one in which each call works on the files it started with.", "quantifier": "all options, histories and interleavings", "why_tests_cant": "A refinement between two machines over all histories.", "anchors": ["src/description.rs:load_pkg_file", "src/lib.rs:resolve"]}
{"id": "C54", "title": "No call spins because files change", "statement": "A call comes to its end whatever happens to directories and description files while it runs.", "quantifier": "all histories with file system changes at any moment", "why_tests_cant": "Needs a removal between two system calls, and non-termination cannot be observed.", "anchors": ["src/description.rs:load_pkg_file"]}
{"id": "C55", "title": "A description file changed while it is read is noticed later", "statement": "If a description file changes while a call is reading it, calls made after the change use the new contents.", "quantifier": "all histories with file system changes at any moment", "why_tests_cant": "Needs a write between the reading of contents and of the modification time.", "anchors": ["src/fs.rs:read_to_string", "src/fs.rs:need_update"]}
{"id": "C56", "title": "A call answers as of one moment", "statement": "If files change during a call, its answer is the one for the files at some single moment of the call.", "quantifier": "all histories with file system changes at any moment", "why_tests_cant": "Quantifies over all moments at which files may change and compares with all snapshots.", "anchors": ["src/lib.rs:resolve", "src/description.rs:load_pkg_file"]}
{"id": "C57", "title": "The spelling of the base path does not matter", "statement": "Two calls whose base paths name the same directory in different spellings (repeated or trailing separators, `.` components) end alike.", "quantifier": "all resolvers, file systems, requests, pairs of spellings and call histories", "why_tests_cant": "The pairs of spellings are unbounded and the caches keyed by path make the outcome depend on the history.", "anchors": ["src/lib.rs:resolve", "src/lib.rs:get_path", "src/resolve.rs:resolve_as_file"]}
{"id": "C58", "title": "An absolute request does not depend on the base directory", "statement": "Resolving an absolute path gives the same answer from every directory, and leaves the same caches; only the directory named in an error differs.", "quantifier": "all options, requests, pairs of directories, file systems and cache states", "why_tests_cant": "Compares two runs over all directories and all states of the caches.", "anchors": ["src/lib.rs:resolve", "src/lib.rs:get_path", "src/resolve.rs:resolve_as_file"]}
{"id": "C59", "title": "A returned path resolves to itself", "statement": "If a call returned a path, then resolving that path, from any directory and at any later time, returns it again.", "quantifier": "all file systems, requests and call histories", "why_tests_cant": "Needs the fixpoint for every reachable answer of every history.", "anchors": ["src/lib.rs:resolve", "src/normalize.rs:normalize_result", "src/resolve.rs:resolve_as_file"]}
{"id": "C60", "title": "The returned path names the file that was found, through symbolic links", "statement": "If a call returned a path, then the path names, on a file system with symbolic links, the file that was found. With symlinks on it is the real path of that file: all its proper prefixes are directories, and no link is followed on the way. With symlinks off it is the lexically normalised path, which still names the same file.", "quantifier": "all file systems with symbolic links (relative, absolute, nested, dangling, in cycles), options, requests and call histories", "why_tests_cant": "Ranges over all layouts of links and all calls before; tests have a few fixed links.", "anchors": ["src/normalize.rs:normalize_path", "src/normalize.rs:normalize_path_without_link", "src/resolve.rs:resolve_as_file"]}
{"id": "C61", "title": "Ignored only where something says so", "statement": "resolve returns Ignored only if an entry of the alias option is ignored or, with browser_field on, the browser map of some JSON file that is or was on disk has an entry false. Without both, no history of calls, caches and changes of files makes a result Ignored.", "quantifier": "all options, requests, file systems, changes of files (at any moment), call histories and interleavings", "why_tests_cant": "A statement about the absence of a result in every execution; the entry may have entered a shared cache through any earlier call.", "anchors": ["src/plugin/alias_field.rs:apply", "src/plugin/alias.rs:apply", "src/lib.rs:resolve"]}
{"id": "C62", "title": "Options that apply to nothing do not matter", "statement": "Two sets of resolvers whose options differ only in condition names that are no key of any exports or imports value, in main fields that no description file has as a string, in extensions with which there is no file, and in main files that are nowhere, do exactly the same: in every history every call has the same outcome, and all caches have the same content. In particular the order of condition names does not matter, and naming the condition default has no effect.", "quantifier": "all pairs of option sets, file systems, changes of files, requests, call histories and interleavings, with shared or separate caches", "why_tests_cant": "Relates two executions for all pairs of options and all histories; a test compares a few calls with two fixed option sets.", "anchors": ["src/map.rs:conditional_mapping", "src/plugin/main_field.rs:apply", "src/plugin/main_file.rs:apply", "src/plugin/extensions.rs:apply", "src/options.rs:ResolverOptions"]}
{"id": "C63", "title": "Debug builds behave like release builds", "statement": "Debug builds keep a map of the description files they have parsed and panic if one is parsed twice. This never happens, and the map has no other effect: every history of a debug build ends in answers and caches that the release build can give for the same calls and the same changes of files.", "quantifier": "all sets of resolvers (debug or release, any options, shared caches), file systems, changes of files at any moment, requests and call histories", "why_tests_cant": "Tests run as debug builds only, so they cannot compare the two builds; whether a file is parsed twice depends on the whole history of calls, caches and changes.", "anchors": ["src/description.rs:parse_description_file", "src/description.rs:load_pkg_file"]}
{"id": "C64", "title": "A request by path depends only on the path it names", "statement": "A relative request from a directory and an absolute request from any other directory that name the same path, with the same query and fragment, end alike; only the message that names the request and the directory differs.", "quantifier": "all options, file systems, directories, requests for a path, states of the caches and call histories", "why_tests_cant": "Tests resolve each path in one way; the claim compares every pair of spellings of a path in every state of the caches.", "anchors": ["src/lib.rs:_resolve", "src/lib.rs:resolve", "src/resolve.rs:resolve_as_file", "src/resolve.rs:resolve_as_dir"]}
{"id": "C65", "title": "A # request leads where the first target of imports leads", "statement": "A request that begins with # is looked up in the imports of the package that the request comes from, and leads where the first of the targets leads: a path must name a file and stay in the package, another # request is looked up again, a bare target is taken from the exports of its package or searched for. If there is no target, or it cannot be used, the call fails with an error that says so; the targets after the first are not tried.", "quantifier": "all imports maps, requests that begin with #, file systems, options and call histories", "why_tests_cant": "Tests sample a few maps and requests; the claim covers every map, chain of # requests and kind of target, after every history.", "anchors": ["src/plugin/imports_field.rs:apply", "src/plugin/imports_field.rs:check_target", "src/map.rs:field_process", "src/lib.rs:_resolve"]}
{"id": "C66", "title": "Calls do not block each other for good", "statement": "However many calls run at once, with whatever caches they share, there is never a deadlock on the locks of the caches: unless all calls are over, one of them can go on; if each gets a turn again and again, all come to their end. Calls that are over have given back all locks, also after a panic. No call has a lock that another has for writing, and an entry found in the cache stays as it is while its guard is kept. Locks change no answers.", "quantifier": "all histories of calls, steps and file changes, all assignments of entries to shards, all policies between readers and writers", "why_tests_cant": "A deadlock needs a particular interleaving of threads and a particular distribution of entries over shards; tests meet few of them.", "anchors": ["src/description.rs:load_pkg_file", "src/fs.rs:need_update", "src/cache.rs:ResolverCache", "src/description.rs:parse_description_file"]}
{"id": "C67", "title": "The joined form of a result resolves to the result", "statement": "The joined form of a result (path, query and fragment in one text) is split into these same parts when it is read as a request, and resolves to the same path, with the same query and fragment, from every directory.", "quantifier": "all results of all calls after any history, all base directories, options and file systems", "why_tests_cant": "The claim relates every result to a second call with a request built from it; tests fix a handful of requests.", "anchors": ["src/lib.rs:join", "src/parse.rs:parse", "src/lib.rs:_resolve"]}
{"id": "C68", "title": "exports and imports are read as Node.js reads them", "statement": "For every exports or imports value and every request, the first target that the resolver gets from the map is the target that the algorithm of the Node.js documentation (PACKAGE_EXPORTS_RESOLVE, PACKAGE_IMPORTS_RESOLVE and the steps they use) finds, and the map gives no target exactly when that algorithm throws; a call whose target is a file in the package answers with that file.", "quantifier": "all JSON values of exports and imports, all requests, all sets of condition names; for whole calls all histories and file systems", "why_tests_cant": "The two algorithms differ in data structure (a tree of keys against a sorted list of patterns) and in the order of checks; agreement for all maps and requests is a statement about an infinite set of pairs, and tests of single maps missed the cases in which they differ.", "anchors": ["src/map.rs:field_process", "src/map.rs:find_match", "src/map.rs:conditional_mapping", "src/map.rs:target_mapping", "src/plugin/exports_field.rs:apply", "src/plugin/imports_field.rs:apply"]}
{"id": "C69", "title": "The text under which a tree is cached determines its value", "statement": "Two JSON values have the same compact text only if they are equal, and a tree found in the cache under the text of a value was built from this value.", "quantifier": "all JSON values; all histories of calls and file changes, all options", "why_tests_cant": "Injectivity of a rendering is about all pairs of values; the second part is about all histories.", "anchors": ["src/description.rs:parse_description_file", "src/cache.rs:exports_content_to_tree"]}
{"id": "C70", "title": "Appending an extension or a main file only finds more", "statement": "With more extensions or main files at the end of the lists, a call ends as it did before, or it finds a file whose name is a path with one of the new extensions or one of the new main files; a request that was resolved is still resolved.", "quantifier": "all pairs of resolvers that differ in this way, all calls of the two after any histories on an unchanging file system, all file systems and requests", "why_tests_cant": "The claim compares two resolvers on every request and file system; tests look at one list of extensions at a time.", "anchors": ["src/plugin/extensions.rs:apply", "src/plugin/main_file.rs:apply", "src/resolve.rs:resolve_as_file", "src/resolve.rs:resolve_as_modules", "src/options.rs:extensions"]}
{"id": "C71", "title": "Only description files and tsconfigs are read", "statement": "A call reads the contents of a file only if it is the description file of a directory that the call has seen, or the configured tsconfig, or a file the call has found for an extends. It asks for the modification times of description files only. Links are followed only by resolve with symlinks, for a file it has seen. Without a description file and a tsconfig no call reads anything.", "quantifier": "all options, all histories of calls and of changes of files at any moment, all interleavings", "why_tests_cant": "Says what never happens, in any history; a test sees the reads of one run.", "anchors": ["src/fs.rs:read_to_string", "src/fs.rs:need_update", "src/description.rs:parse_description_file", "src/description.rs:load_pkg_file", "src/tsconfig.rs:parse_file_to_value", "src/normalize.rs:normalize_path"]}
{"id": "C72", "title": "A stored description file that has not changed is not read again", "statement": "Once a call of a resolver has stored the package of an absolute directory, no later call of that resolver reads the description file of the directory (a file with a relative name), however the directory is spelled, as long as the modification times of the file lie less than the duration of the file cache apart; the one exception is a description file that is also used as a tsconfig.", "quantifier": "all options, all histories of calls of several resolvers and of changes of other files at any moment, all interleavings", "why_tests_cant": "Relates a call to every earlier one, under every interleaving and change of files.", "anchors": ["src/fs.rs:need_update", "src/fs.rs:read_to_string", "src/fs.rs:CacheFile", "src/description.rs:load_pkg_file", "src/cache.rs:ResolverCache"]}
{"id": "C73", "title": "The current directory does not matter to calls with absolute paths", "statement": "A call with an absolute path, of a resolver whose tsconfig (if any) has an absolute path, looks at absolute paths only. If all calls are like that, two runs that differ in nothing but the current directory of the process end in the same way, call by call.", "quantifier": "for all configurations of any number of resolvers, all file systems, all histories of calls interleaved step by step, with any changes of files (and of the current directory) between any two looks of a call; for the first part, whatever other calls there are", "why_tests_cant": "Tests run in one current directory, and a look at a relative path that happens to give the same answer there goes unnoticed. That no path made by joining, by parents, by main fields, exports, imports, browser maps, aliases or tsconfig paths is ever relative is a statement about all of them.", "anchors": ["src/lib.rs:resolve", "src/resolve.rs:resolve_as_modules", "src/description.rs:load_pkg_file", "src/utils.rs:find_up", "src/tsconfig.rs:parse_file_to_value", "src/tsconfig_path.rs:_resolve_with_tsconfig"]}
{"id": "C74", "title": "A package can ask for itself by its name", "statement": "A request made from within a package that has a name and exports, and that starts with this name, comes to what the package's own exports say: the first target that names a file inside of it, or the error \"Package path … is not exported\". Requests for other packages are not answered by it.", "quantifier": "for all configurations, all file systems with the laws of Unix paths, all package directories, all base directories below without a node_modules in between, all requests that start with the name, with or without query and fragment, after any history of calls on any number of resolvers", "why_tests_cant": "A self-reference goes through the search in node_modules for a package that is not there, and works only by way of the description file found above. Whether it does depends on directories which do not exist and on how the name is cut; tests try one tree with one name.", "anchors": ["src/plugin/exports_field.rs:is_resolve_self", "src/plugin/exports_field.rs:apply", "src/resolve.rs:resolve_as_modules", "src/utils.rs:find_up"]}
{"id": "C75", "title": "Other fields of JSON files do not matter", "statement": "Of a description file only the fields name, browser, exports, imports, sideEffects and the configured main fields have any influence, of a tsconfig only extends and, below compilerOptions, baseUrl and paths. Two runs in which files differ in nothing else end in the same way, call by call: same result, same error, same panic. So nothing changes if all JSON files are stripped of all other fields; and every one of those fields does matter.", "quantifier": "for all configurations of any number of resolvers with shared or own caches, all file systems, all histories of calls interleaved step by step, and all changes of files between any two looks of a call", "why_tests_cant": "Tests use description files with a handful of fields. That no other field, at whatever place and whatever its value, has an influence on any later call through the caches (which keep the whole JSON value) is a statement about pairs of runs.", "anchors": ["src/description.rs:parse_description_file", "src/plugin/main_field.rs:apply", "src/tsconfig.rs:parse_file_to_value", "src/tsconfig.rs:merge", "src/tsconfig_path.rs:_resolve_with_tsconfig"]}
{"id": "C76", "title": "Loading a description file takes a bounded number of steps", "statement": "load_side_effects is wait-free with a bound: if directories and places of description files stay as they are, it ends after at most 5 d + 18 looks and cache operations of its own, where d is the number of components of the path, whatever other calls do in between and whatever happens to contents and times of files. If the cache has an entry for the directory it ends after at most 18, however deep the directory and whatever happens to the description files.", "quantifier": "for all configurations of any number of resolvers with shared or own caches, all file systems, all histories before the call, all interleavings with other calls and all changes of files that keep the layout, and all absolute paths", "why_tests_cant": "A test sees one schedule and one depth. The bound holds for every schedule, including those in which other calls store or drop the same entries between any two steps.", "anchors": ["src/description.rs:load_pkg_file", "src/description.rs:load_side_effects", "src/utils.rs:find_up", "src/fs.rs:need_update"]}
{"id": "C77", "title": "A call made again gives the same answer and changes nothing", "statement": "A resolver sticks to its answers: if resolve or load_side_effects returns something, and the files stay as they are, then the same call made again, after any other calls of that resolver, returns the same thing (the same path, description file, error or Ignored), and it leaves every cache exactly as it finds it. What the first answer is may depend on earlier calls; that it stays does not.", "quantifier": "for all options, all file systems with well-formed description files, all states of the caches in which no description file was lost, all calls, and all lists of calls in between", "why_tests_cant": "A test repeats a call a few times. The claim covers any calls in between, including those that overwrite shared cache entries, and says that not one entry of any cache is touched the second time.", "anchors": ["src/lib.rs:resolve", "src/description.rs:load_pkg_file", "src/description.rs:load_side_effects", "src/description.rs:parse_description_file", "src/fs.rs:need_update", "src/fs.rs:read_to_string"]}
{"id": "C78", "title": "tsconfig paths are read as TypeScript reads them", "statement": "For a resolver with a tsconfig, the paths tried before the usual lookup are those that TypeScript tries, in the same order: the options of a file win over those of the file it extends; the entry of paths that equals the name counts, otherwise the pattern with the longest text before its star; the text matched by the star is put into each substitution, which is relative to baseUrl; the first of these paths that resolves decides, and if none does the name is looked up as usual.", "quantifier": "for all tsconfig files and chains of extends, all file systems, all states of the caches, all options and all requests", "why_tests_cant": "The tests have a few tsconfig files. The claim compares the code with an independent transcription of TypeScript's rules for every chain of files, every set of patterns and every name, and so shows where the two part.", "anchors": ["src/tsconfig.rs:parse_file", "src/tsconfig.rs:parse_file_to_value", "src/tsconfig.rs:merge", "src/tsconfig_path.rs:match_star", "src/tsconfig_path.rs:create_match_list", "src/tsconfig_path.rs:get_absolute_mapping_entries", "src/tsconfig_path.rs:_resolve_with_tsconfig"]}
{"id": "C79", "title": "Error messages are true", "statement": "What an error says is so. A failed resolution names the request and the directory of the call. A file reported as unreadable, unparsable or older than its cached time was so at some moment of the call, under the path in the message. A target, key, default or sideEffects entry reported as wrong is written in a description file and is wrong in the way the message says. A target is reported as not exported only if everything exports or imports give for it is no file or leaves the package. The internal marker T0 never reaches the caller.", "quantifier": "for all histories of calls by any number of resolvers with any interleaving, all options, requests and directories, and all changes of files at any moment", "why_tests_cant": "Tests look at the text of a few errors. A wrong path in a message, an error left over from another file, or a marker that escapes shows only on the inputs that lead there; the claim covers every error of every call, including those caused by caches and by files that change during the call.", "anchors": ["src/lib.rs:resolve", "src/lib.rs:_resolve", "src/description.rs:parse_description_file", "src/description.rs:load_pkg_file", "src/description.rs:load_side_effects", "src/fs.rs:need_update", "src/fs.rs:read_to_string", "src/map.rs:assert_request", "src/map.rs:assert_target", "src/map.rs:target_mapping", "src/map.rs:field_process", "src/map.rs:build_field_path_tree", "src/plugin/exports_field.rs:apply", "src/plugin/imports_field.rs:apply", "src/tsconfig.rs:parse_file_to_value"]}
{"id": "C80", "title": "The caches hold only what was so", "statement": "Whatever a cache holds was true of the files at some moment. A package stored for a directory was read from the description file of that directory, and its name, version, sideEffects, browser map, exports and imports are those of the JSON there. A directory stored as having no package was a directory without a description file, and so were all its parents. A compiled map is that of a value some file had as exports or imports, stored under the text of this very value. A stored time was the time of that file. No entry is ever removed. A directory has one entry only.", "quantifier": "for all histories of calls by any number of resolvers that share caches in any way, with any interleaving of their steps, all options, and all changes of files at any moment, including during a call", "why_tests_cant": "A wrong entry does no harm until a later call, by another resolver or for another path, reads it; tests rarely look into the caches, and cannot go through all orders in which threads and file changes write them.", "anchors": ["src/description.rs:load_pkg_file", "src/description.rs:parse_description_file", "src/description.rs:PkgFileInfo", "src/cache.rs:ResolverCache", "src/fs.rs:CacheFile", "src/fs.rs:read_to_string"]}
{"id": "C81", "title": "One file has one path", "statement": "With symlinks on, two answers that name the same file have the same path, letter by letter, whatever the requests, the base directories, the options and the links on the way were. Without links on the disk this is so whatever the option says.", "quantifier": "for all trees with links, all histories of calls by any resolvers sharing caches in any way, all interleavings, all pairs of answers with a path to calls with absolute base paths", "why_tests_cant": "A bundler that sees two paths for one file loads a module twice; the claim is about every pair of spellings of every file and a test checks some.", "anchors": ["src/lib.rs:resolve", "src/normalize.rs:normalize_path", "src/normalize.rs:normalize_path_without_link", "src/normalize.rs:normalize_result"]}
{"id": "C82", "title": "A new file changes only the answers that become this file", "statement": "When new files appear, a call gives the answer it gave without them, or one of the new files. So what is resolved stays resolved, and no answer moves to another old file.", "quantifier": "for all file systems and all sets of new files, all options and requests, after all histories of calls on each of the two file systems; browser_field and enforced extensions off, no tsconfig, no imports, no new description file, no new file at the place of a package in node_modules", "why_tests_cant": "It compares every call on every pair of file systems; the stages that look for files are many and each of them looks for several, so a test sees a few of the pairs.", "anchors": ["src/resolve.rs:resolve_as_file", "src/resolve.rs:resolve_as_dir", "src/resolve.rs:resolve_as_modules", "src/plugin/exports_field.rs:apply", "src/plugin/main_file.rs:apply", "src/plugin/main_field.rs:apply"]}
{"id": "C83", "title": "Requests resolve as with require of Node.js", "statement": "With the options that correspond to Node.js, a call comes to the file that the algorithm of the Node.js documentation for require finds, and to an error if that algorithm finds none or throws.", "quantifier": "for all file systems, base directories and requests, after all histories of calls; for projects and requests that both read alike (no directory in which nothing is found, a main that names a directory without description file, packages in node_modules with a description file, exports and imports as in C68, a node_modules directory in a package that asks for itself, no core modules)", "why_tests_cant": "It relates the whole resolution, for every tree of files and description files and every request, to another algorithm; tests compare single projects.", "anchors": ["src/lib.rs:resolve", "src/resolve.rs:resolve_as_file", "src/resolve.rs:resolve_as_dir", "src/resolve.rs:resolve_as_modules", "src/plugin/exports_field.rs:apply", "src/plugin/main_field.rs:apply", "src/plugin/main_file.rs:apply", "src/plugin/imports_field.rs:apply"]}
{"id": "C84", "title": "Moving a project moves the answers", "statement": "If a project is in another directory, calls for paths in it come to the same files of the project, with the same queries and fragments, to the same side effects, or to the same errors about the same places.", "quantifier": "for all file systems, all pairs of places, all paths in the project and all requests that do not lead out of it, after all histories of calls; for projects that are on their own and do not refer to their place or lead out of it, and places that both or neither have node_modules in their text", "why_tests_cant": "It compares two runs for every project, every pair of places and every request; a test checks one project in one or two directories, and the failing places, such as a directory whose name contains node_modules, are not among them.", "anchors": ["src/lib.rs:resolve", "src/description.rs:load_side_effects", "src/resolve.rs:resolve_as_modules", "src/description.rs:load_pkg_file", "src/plugin/exports_field.rs:is_in_module", "src/plugin/imports_field.rs:apply"]}
{"id": "C85", "title": "What lies outside of a project does not matter", "statement": "A call for a path in a project depends only on the files of the project: anything else on the disk can be changed without changing how the call ends. The file that is found, the description file with the side effects, and the places that errors are about lie in the project.", "quantifier": "for all pairs of file systems with the same project in one directory, all paths in the project and all requests that do not lead out of it, after all histories of calls; for projects without description files and node_modules above them and without a file of their name next to them, that do not refer to their place or lead out of it", "why_tests_cant": "It compares two runs for every pair of file systems; a test has one surrounding of the project, and the files outside that matter, such as a file next to the project with its name and an extension, are not among those a test puts there.", "anchors": ["src/lib.rs:resolve", "src/description.rs:load_side_effects", "src/resolve.rs:resolve_as_modules", "src/resolve.rs:resolve_as_file", "src/description.rs:load_pkg_file", "src/map.rs:check_target"]}
{"id": "C86", "title": "A request by path takes a bounded number of steps", "statement": "A relative or absolute request to which no alias applies and that names no directory ends after at most 5 * d + e + 21 looks at the files or cache operations of its own, where d is the depth of the path it names and e the number of extensions. Without main fields this holds for directories too, with 10 * d + (m + 1) * (e + 1) + 38 steps, where m is the number of main files. With main fields that lead on from directory to directory at most R times in a row, d levels down each time, the number of steps is bounded too, by a number that depends only on the options, R, d and the depth. It never hangs.", "quantifier": "for all options without browser_field, prefer_relative and tsconfig, all absolute paths and all requests by path to which no alias applies, after all histories of calls and with other calls running in between; for all changes of files that leave directories and the places of description files as they are", "why_tests_cant": "The bound is over every depth, every order of steps of other calls and every change of files; a test counts the steps of some runs on a quiet disk.", "anchors": ["src/lib.rs:resolve", "src/resolve.rs:resolve_as_file", "src/resolve.rs:resolve_as_dir", "src/description.rs:load_pkg_file"]}
{"id": "C87", "title": "Repeated options and the order of unrelated ones do not matter", "statement": "Exchanging two aliases of which neither key begins the other, and writing the condition names in another order or several times, leaves every state of the system as it was. Repeating an alias or an extension after its first place changes no answer. For main fields and for main files with a browser map this fails: a second look starts where the first one led.", "quantifier": "for all resolvers, all aliases, condition names and extensions, and all requests; order and extensions: for all histories with calls at the same time, shared caches and changes of files; order also for files that change in the middle of a call; repeated aliases: for all files that stay as they are, if tsconfig has no overlapping patterns", "why_tests_cant": "The options are arbitrary lists and the claim compares two whole histories; tests run one set of options at a time.", "anchors": ["src/plugin/alias.rs:apply", "src/plugin/extensions.rs:apply", "src/plugin/main_field.rs:apply", "src/plugin/main_file.rs:apply", "src/options.rs:ResolverOptions"]}
{"id": "C88", "title": "A request by path depends only on the paths it leads to", "statement": "The answer to a request by path depends only on these paths: the path that is named, with and without each extension, the main files in it, it and the directories above it with the description files in them, and the same for every path that a main field on the way names. Side effects depend only on the path, the directories above it and the description files in them. Whatever else differs between two file systems, the answer is the same.", "quantifier": "for all pairs of file systems that agree on these paths, all options without tsconfig and browser_field, all requests by path that no alias and no prefer_relative applies to, all pairs of histories with calls at the same time and shared caches while the files stay as they are", "why_tests_cant": "The claim is about every file system that differs elsewhere; a test changes a few files and cannot rule out that some other one is looked at.", "anchors": ["src/resolve.rs:resolve_as_file", "src/resolve.rs:resolve_as_dir", "src/description.rs:load_side_effects", "src/plugin/main_field.rs:apply", "src/plugin/main_file.rs:apply", "src/plugin/extensions.rs:apply"]}
{"id": "C89", "title": "A request that ends in a separator is for a directory", "statement": "A request by path that ends in a separator succeeds only if there is a directory with this path; and as long as the path, with or without an extension, is not the path of a file, it ends like the request without the separator. A file whose whole name is an extension breaks this: ./q/ gets /q/.js.", "quantifier": "for all requests by path that end in a separator, all options without tsconfig, browser_field and applicable aliases, all answers of the caches and histories with changes of files; the comparison: for all pairs of histories while files stay as they are", "why_tests_cant": "It has to hold for every path, extension list and state of the caches; tests name a few directories.", "anchors": ["src/resolve.rs:resolve_as_file", "src/resolve.rs:resolve_as_dir", "src/resolve.rs:append_ext_for_path", "src/lib.rs:get_path"]}
{"id": "C90", "title": "What no call has looked at does not matter", "statement": "If, after any history with changes of files, some files give the same answers to all looks that calls have had at files so far, then each call has ended as in a fresh resolver on these files. So a change that no look has noticed makes no difference: calls in progress and later calls end as in a fresh resolver on the new files. And if the looks of a history are recorded, then each of its calls ends in the same way in any history on files that give the same answers to these looks, even if times differ. The looks of the call itself are not enough.", "quantifier": "for all options, requests and file systems, all histories with calls at the same time and shared caches, all moments of the change, also in the middle of calls; the new files may differ from the old ones in anything that was not looked at", "why_tests_cant": "The claim is about all files that were not looked at and all moments of the change; a test changes a few files between calls.", "anchors": ["src/lib.rs:resolve", "src/description.rs:load_pkg_file", "src/fs.rs:need_update", "src/resolve.rs:resolve_as_file", "src/resolve.rs:resolve_as_dir"]}
{"id": "C91", "title": "Query and fragment do not influence where a request leads", "statement": "Two histories that differ only in the queries and fragments of requests go the same way: at every moment the caches are the same, each call makes the same looks at files, ends at the same moment and leads to the same file or to the same failure. The query and fragment of a result are those of its request, or those of a rule and then the same in both histories.", "quantifier": "for all options, file systems and requests, all queries and fragments, all histories with calls at the same time, shared caches and files that change at any moment", "why_tests_cant": "The claim compares all pairs of queries and fragments in all interleavings; a test tries a few queries on one call.", "anchors": ["src/parse.rs:parse_identifier", "src/lib.rs:resolve", "src/plugin/exports_field.rs:apply", "src/plugin/alias.rs:apply", "src/plugin/imports_field.rs:apply", "src/resolve.rs:resolve_as_file"]}
{"id": "C92", "title": "A request by name takes a bounded number of steps", "statement": "A request by name, to which no alias applies, ends after a number of looks at files and cache operations of its own that depends only on the options, the depths of the path and of the name, the number of targets in exports, and how often and how deep main fields lead on from directory to directory. It never hangs.", "quantifier": "for all options without browser_field, prefer_relative and tsconfig, all absolute paths and all names, after all histories of calls and with other calls running in between; for all packages with at most E targets in exports that name no import, and main fields that lead on at most R times in a row; for all changes of contents that leave files and directories in place", "why_tests_cant": "A test measures some requests in some trees; the bound covers all trees, all states the caches can be in and changes at any moment.", "anchors": ["src/resolve.rs:resolve_as_modules", "src/resolve.rs:resolve_as_dir", "src/plugin/exports_field.rs:apply", "src/plugin/main_field.rs:apply", "src/description.rs:load_pkg_file"]}
{"id": "C93", "title": "A resolver without delay is never out of date", "statement": "A resolver whose file cache has a duration of zero, as `Resolver::default()` makes it, answers as a fresh resolver would on the files its call has seen, whatever has been stored before: contents that were replaced while a call was reading them, that were malformed for a while, or that another resolver with a delay has put into the shared cache. Description files must not have been deleted, except together with their directories, nor their times gone back; new ones may have come below directories that had one all the time.", "quantifier": "for all options, all absolute paths and requests, all histories of calls of several resolvers with shared caches, all changes of contents at any moment before the call, also in the middle of other calls, and all interleavings", "why_tests_cant": "A test replaces a file at a few chosen moments; the claim covers every moment of every interleaving, and every state in which earlier calls can have left the caches.", "anchors": ["src/fs.rs:need_update", "src/fs.rs:CacheFile", "src/description.rs:load_pkg_file", "src/lib.rs:Resolver", "src/cache.rs:ResolverCache"]}
{"id": "C94", "title": "Touching all description files makes up for everything", "statement": "Whatever state a history of calls and changes has left the shared caches in - contents that were replaced while a call was reading them, malformed files, times that went back -, it is made up for by touching all description files while no call is in progress, that is by giving each of them a time at least one delay later than any time it had before. From then on, as long as calls and proper updates take turns, every call ends as in a fresh resolver on the files of its time. No description file may have been deleted before that, and none created where there was none above.", "quantifier": "for all configurations of any number of resolvers, all histories of calls and of changes of files at any moment and all interleavings before the touch, all contents before and after it, and all histories of calls and updates taking turns after it", "why_tests_cant": "The state of the caches before the touch depends on the moments of all changes and on the interleaving of all calls; a test sees one such state, the claim is about all that can be reached.", "anchors": ["src/fs.rs:need_update", "src/fs.rs:CacheFile", "src/description.rs:load_pkg_file", "src/cache.rs:ResolverCache", "src/lib.rs:Resolver"]}
{"id": "C95", "title": "Answers for given files hold between updates of the files", "statement": "If a call always comes to some answer (or panic) on files that stay as they are, it comes to the same one when it is made between updates of the files, whatever the files were before and whatever has been asked: in particular it comes to the file that Node.js finds among the files as they are at the time of the call. After a history in which files have changed at any moment this holds again once all description files have got later times while no call was in progress.", "quantifier": "for all configurations of any number of resolvers, all files, all requests and answers, all histories of calls and updates taking turns, and all histories with changes at any moment before all description files are touched", "why_tests_cant": "The claim carries every theorem about unchanging files over to every history of edits; a test shows one edit and one request.", "anchors": ["src/lib.rs:Resolver", "src/fs.rs:need_update", "src/description.rs:load_pkg_file", "src/cache.rs:ResolverCache"]}
{"id": "C96", "title": "Files and packages may come and go while description files stay as they are", "statement": "As long as the description files keep their places and contents, and their times do not go back, all other files may be created, deleted and changed at any moment, and packages may be installed and uninstalled with their directories, also in the middle of calls, and even if their description files are malformed while they are written: every call answers as a fresh resolver would on the files it has seen, whatever the delay of the resolver is, and whatever earlier and parallel calls of it and of other resolvers have stored. In particular an answer that is known for files that stay as they are holds amid such changes. New description files must come below directories that have one all the time.", "quantifier": "for all options and delays, all absolute paths and requests, all histories of calls of several resolvers with shared caches, all changes of other files at any moment, and all interleavings", "why_tests_cant": "It is a claim about every interleaving of parallel calls with every sequence of changes of files; a test carries out a few of them, and cannot place a change between two given looks at the files.", "anchors": ["src/fs.rs:need_update", "src/description.rs:load_pkg_file", "src/cache.rs:ResolverCache", "src/lib.rs:Resolver"]}
{"id": "C97", "title": "A request by name depends only on the package it names and what that leads to", "statement": "The answer to a request by name depends only on these paths: the node_modules directories of the directory it is made from and of the directories above it, the package and the path that is named in each of them, what the targets of the exports that apply there can name with ends of the request filled in, and what such paths lead to as in C88: the path with and without each extension, the main files in it, the directories above it with the description files in them, and the paths that main fields on the way name. Whatever else differs between two file systems, such as which other packages are installed, the answer is the same.", "quantifier": "for all pairs of file systems that agree on these paths, in the first of which all targets of exports begin with ./, all options without tsconfig and browser_field, all requests by name with an ASCII package name that no alias and no prefer_relative applies to, all pairs of histories with calls at the same time and shared caches while the files stay as they are, or come and go at any moment as in C96, where each call is taken with the files that it has seen", "why_tests_cant": "It compares all pairs of file systems that differ in any way outside a set of paths, after all histories; a test installs a few packages beside the one that is asked for.", "anchors": ["src/resolve.rs:resolve_as_modules", "src/plugin/exports_field.rs:apply", "src/plugin/main_field.rs:apply", "src/plugin/main_file.rs:apply", "src/description.rs:load_pkg_file", "src/map.rs:field_process"]}
{"id": "C98", "title": "Installing other packages does not change what a request by name gives", "statement": "Installing, replacing or removing packages changes the answer to a request by name only if the request is for one of them: as long as main fields and exports, filled in for the request, do not lead up or into node_modules directories, and there are no description files directly in node_modules directories, whatever is in the directories of other packages does not matter.", "quantifier": "for all pairs of file systems that differ at most in the directories of any number of packages that the request does not begin with (with and without extensions) and that are not called like a main file, a description file or an extension, all options without tsconfig and browser_field, all requests by name with an ASCII package name that no alias and no prefer_relative applies to, all pairs of histories with calls at the same time and shared caches while the files stay as they are, or come and go at any moment as in C96, where each call is taken with the files that it has seen; exports, with and without patterns, whose targets begin with ./", "why_tests_cant": "It compares all pairs of file systems with any contents of any set of other packages, after all histories; a test installs a few packages.", "anchors": ["src/resolve.rs:resolve_as_modules", "src/plugin/exports_field.rs:apply", "src/plugin/main_field.rs:apply", "src/plugin/main_file.rs:apply", "src/description.rs:load_pkg_file"]}
{"id": "C99", "title": "Installing packages does not change what a request by path gives", "statement": "Installing, replacing or removing packages changes neither the answer to a request by path nor the side effects of a path, unless that path is in one of them: as long as main fields do not lead up or into node_modules directories, and there are no description files directly in node_modules directories, whatever is in the directories of packages does not matter.", "quantifier": "for all pairs of file systems that differ at most in the directories of any number of packages that are not called like a main file, a description file or an extension, all options without tsconfig and browser_field, all requests by path that no alias and no prefer_relative applies to and that name an absolute path that, with and without extensions, is in none of the packages and does not come through them by .., all pairs of histories with calls at the same time and shared caches while the files stay as they are, or come and go at any moment as in C96, where each call is taken with the files that it has seen", "why_tests_cant": "It compares all pairs of file systems with any contents of any set of packages, after all histories; a test installs a few packages.", "anchors": ["src/resolve.rs:resolve_as_file", "src/resolve.rs:resolve_as_dir", "src/plugin/main_field.rs:apply", "src/plugin/main_file.rs:apply", "src/description.rs:load_pkg_file"]}
{"id": "C100", "title": "Without node_modules, a directory asks those above", "statement": "A request by name from a directory gives the same answer as from a directory above it, if there is no node_modules directory in it or on the way up. Only the message that nothing was found differs, as it names the directory.", "quantifier": "for all file systems, all numbers of levels between the directories, all options without tsconfig, all requests by name that no alias and no prefer_relative applies to, where the description files that are looked at first can be loaded and have no browser entry for the target, all pairs of histories with calls at the same time and shared caches while the files stay as they are, or come and go at any moment as in C96, where each call is taken with the files that it has seen", "why_tests_cant": "It compares calls from all directories at all depths after all histories; a test has a few directories and a fresh or known cache.", "anchors": ["src/resolve.rs:resolve_as_modules", "src/lib.rs:_resolve", "src/description.rs:load_pkg_file"]}
