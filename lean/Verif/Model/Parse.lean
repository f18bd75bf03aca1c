import Verif.Model.Basic
/-!
# Request parsing and classification (src/parse.rs, src/kind.rs)
-/

namespace Verif

/-- `PathKind` (src/kind.rs:4-10). -/
inductive PathKind where
  | relative
  | absoluteWin
  | absolutePosix
  | internal
  | normal
  deriving DecidableEq, Repr, Inhabited

/-- `ParseStats` (src/parse.rs:90-95). -/
inductive ParseStats where
  | request
  | query
  | fragment
  | start
  deriving DecidableEq, Repr

/-- The state change on one character (src/parse.rs:37-58). -/
def parseNext (c : Char) (st : ParseStats) : ParseStats :=
  if c = '#' then
    match st with
    | .request | .query => .fragment
    | .start => .request
    | .fragment => .fragment
  else if c = '?' then
    match st with
    | .request | .query | .start => .query
    | .fragment => .fragment
  else
    match st with
    | .start => .request
    | s => s

/-- One iteration of the loop (src/parse.rs:36-65): the new state and the three buffers.
The `unreachable!()` arm (line 63) is state `start` after `parseNext`, which
`Verif.parseNext_ne_start` excludes; the model leaves the buffers alone there. -/
def parseStep (acc : ParseStats × Str × Str × Str) (c : Char) : ParseStats × Str × Str × Str :=
  let (st, t, q, f) := acc
  let st := parseNext c st
  match st with
  | .request => (st, t ++ [c], q, f)
  | .query => (st, t, q ++ [c], f)
  | .fragment => (st, t, q, f ++ [c])
  | .start => (st, t, q, f)

/-- `Request::parse_identifier` (src/parse.rs:30-67). -/
def parseIdentifier (ident : Str) : Str × Str × Str :=
  (ident.foldl parseStep (.start, [], [], [])).2

/-- The 52 drive letters (src/kind.rs:85-90, first characters of the patterns). -/
def driveLetters : Str :=
  cs!"abcdefghijklmnopqrstuvwxyzABCDEFGHIJKLMNOPQRSTUVWXYZ"

/-- `ABSOLUTE_WIN_PATTERN_LENGTH_TWO` (src/kind.rs:85-90). -/
def winPatternsTwo : List Str := driveLetters.map fun c => [c, ':']

/-- `ABSOLUTE_WIN_PATTERN_REST` (src/kind.rs:92-102). -/
def winPatternsRest : List Str :=
  driveLetters.map (fun c => [c, ':', '\\']) ++ driveLetters.map (fun c => [c, ':', '/'])

/-- First hit of `PMA.leftmost_find_iter` (src/kind.rs:104-109, 131): start (in characters) and
text of the leftmost occurrence of a pattern. The automaton is represented by its
specification; all patterns have three characters, so leftmost-longest is leftmost. -/
def leftmostFind (pats : List Str) : Str → Option (Nat × Str)
  | [] => (pats.find? fun p => p.isPrefixOf []).map fun p => (0, p)
  | c :: s =>
    match pats.find? fun p => p.isPrefixOf (c :: s) with
    | some p => some (0, p)
    | none => (leftmostFind pats s).map fun (i, p) => (i + 1, p)

/-- `Resolver::get_target_kind` (src/kind.rs:112-141). The condition on line 134 about the
match length always holds for a hit. -/
def getTargetKind (t : Str) : PathKind :=
  if t = [] then .relative
  else if startsWith t cs!"#" then .internal
  else if startsWith t cs!"/" then .absolutePosix
  else if t = cs!"." || startsWith t cs!"./" || startsWith t cs!"../" || t = cs!".." then .relative
  else if utf8Len t = 2 && winPatternsTwo.contains t then .absoluteWin
  else
    match leftmostFind winPatternsRest t with
    | some (0, _) => .absoluteWin
    | _ => .normal

/-- `BUILT_IN_MODULE_SET` (src/kind.rs:16-83), verbatim, including the entry
`"assert/,strict"` of line 32. -/
def builtInModules : List Str := [
  cs!"_http_agent", cs!"_http_client", cs!"_http_common", cs!"_http_incoming",
  cs!"_http_outgoing", cs!"_http_server", cs!"_stream_duplex", cs!"_stream_passthrough",
  cs!"_stream_readable", cs!"_stream_transform", cs!"_stream_wrap", cs!"_stream_writable",
  cs!"_tls_common", cs!"_tls_wrap", cs!"assert", cs!"assert/,strict", cs!"async_hooks",
  cs!"buffer", cs!"child_process", cs!"cluster", cs!"console", cs!"constants", cs!"crypto",
  cs!"dgram", cs!"diagnostics_channel", cs!"dns", cs!"dns/promises", cs!"domain", cs!"events",
  cs!"fs", cs!"fs/promises", cs!"http", cs!"http2", cs!"https", cs!"inspector", cs!"module",
  cs!"net", cs!"os", cs!"path", cs!"path/posix", cs!"path/win32", cs!"perf_hooks", cs!"process",
  cs!"punycode", cs!"querystring", cs!"readline", cs!"repl", cs!"stream", cs!"stream/consumers",
  cs!"stream/promises", cs!"stream/web", cs!"string_decoder", cs!"sys", cs!"timers",
  cs!"timers/promises", cs!"tls", cs!"trace_events", cs!"tty", cs!"url", cs!"util",
  cs!"util/types", cs!"v8", cs!"vm", cs!"wasi", cs!"worker_threads", cs!"zlib"]

/-- `Resolver::is_build_in_module` (src/kind.rs:143-145). The perfect hash set is represented
by its list of members. -/
def isBuiltIn (t : Str) : Bool := builtInModules.contains t

/-- `Request` (src/parse.rs:6-12). -/
structure Request where
  target : Str
  query : Str
  fragment : Str
  kind : PathKind
  deriving DecidableEq, Repr, Inhabited

/-- `Request::empty` (src/parse.rs:21-28). -/
def Request.empty : Request := ⟨[], [], [], .relative⟩

/-- `Request::with_target` (src/parse.rs:69-75). -/
def Request.withTarget (r : Request) (t : Str) : Request :=
  { r with kind := getTargetKind t, target := t }

/-- `Resolver::parse` (src/parse.rs:79-87). -/
def parseRequest (s : Str) : Request :=
  let (t, q, f) := parseIdentifier s
  { kind := getTargetKind t, target := t, query := q, fragment := f }

/-- `Display for Request` (src/parse.rs:14-18). -/
def Request.display (r : Request) : Str := r.target ++ r.query ++ r.fragment

end Verif
