import Verif.Model.Parse
/-!
# Specifications for request strings

Only `Str` and `PathKind` are used from the model.
-/

namespace Verif

/-- `s` splits into target, query and fragment: the query starts at the first `?` that is not
behind a fragment, the fragment at the first `#` that is not the first character. -/
structure IsSplit (s target query fragment : Str) : Prop where
  concat : s = target ++ query ++ fragment
  target_no_query : '?' ∉ target
  target_hash : '#' ∉ target.tail
  query_start : query = [] ∨ query.head? = some '?'
  query_no_hash : '#' ∉ query
  fragment_start : fragment = [] ∨ fragment.head? = some '#'
  leading_hash : target = [] → query = [] → fragment = []

/-- An ASCII letter. -/
def IsLetter (c : Char) : Prop :=
  ('a' ≤ c ∧ c ≤ 'z') ∨ ('A' ≤ c ∧ c ≤ 'Z')

/-- What makes a target relative. -/
def SpecRelative (t : Str) : Prop :=
  t = [] ∨ t = ['.'] ∨ t = ['.', '.'] ∨ ['.', '/'] <+: t ∨ ['.', '.', '/'] <+: t

/-- What makes a target internal. -/
def SpecInternal (t : Str) : Prop := ['#'] <+: t

/-- What makes a target POSIX-absolute. -/
def SpecPosix (t : Str) : Prop := ['/'] <+: t

/-- What makes a target Windows-absolute: `X:`, `X:/…` or `X:\…`. -/
def SpecWin (t : Str) : Prop :=
  ∃ c, IsLetter c ∧ (t = [c, ':'] ∨ [c, ':', '/'] <+: t ∨ [c, ':', '\\'] <+: t)

/-- `module.builtinModules` of Node.js 16. -/
def nodeBuiltins : List Str := [
  cs!"_http_agent", cs!"_http_client", cs!"_http_common", cs!"_http_incoming",
  cs!"_http_outgoing", cs!"_http_server", cs!"_stream_duplex", cs!"_stream_passthrough",
  cs!"_stream_readable", cs!"_stream_transform", cs!"_stream_wrap", cs!"_stream_writable",
  cs!"_tls_common", cs!"_tls_wrap", cs!"assert", cs!"assert/strict", cs!"async_hooks",
  cs!"buffer", cs!"child_process", cs!"cluster", cs!"console", cs!"constants", cs!"crypto",
  cs!"dgram", cs!"diagnostics_channel", cs!"dns", cs!"dns/promises", cs!"domain", cs!"events",
  cs!"fs", cs!"fs/promises", cs!"http", cs!"http2", cs!"https", cs!"inspector", cs!"module",
  cs!"net", cs!"os", cs!"path", cs!"path/posix", cs!"path/win32", cs!"perf_hooks", cs!"process",
  cs!"punycode", cs!"querystring", cs!"readline", cs!"repl", cs!"stream", cs!"stream/consumers",
  cs!"stream/promises", cs!"stream/web", cs!"string_decoder", cs!"sys", cs!"timers",
  cs!"timers/promises", cs!"tls", cs!"trace_events", cs!"tty", cs!"url", cs!"util",
  cs!"util/types", cs!"v8", cs!"vm", cs!"wasi", cs!"worker_threads", cs!"zlib"]

end Verif
