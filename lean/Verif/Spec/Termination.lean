import Verif.Spec.Packages
/-!
# Systems in which every call comes to an end
-/

namespace Verif

/-- One alias replacement, or the `./` put in front by `prefer_relative`: from `t` to `t'`. -/
inductive AliasStep (o : Opts) : Str → Str → Prop where
  | replace {src to rest : Str} : (src, .target to) ∈ o.alias → ¬ to <+: src ++ rest →
      AliasStep o (to ++ rest) (src ++ rest)
  | prefer {t : Str} : o.preferRelative = true → ¬ cs!"./" <+: t → ¬ cs!"../" <+: t →
      AliasStep o (cs!"./" ++ t) t

mutual
/-- The strings in a JSON value (not the keys). -/
def Json.strings : Json → List Str
  | .str s => [s]
  | .arr l => arrStrings l
  | .obj l => objStrings l
  | _ => []
/-- See `Json.strings`. -/
def arrStrings : List Json → List Str
  | [] => []
  | j :: l => j.strings ++ arrStrings l
/-- See `Json.strings`. -/
def objStrings : List (Str × Json) → List Str
  | [] => []
  | (_, j) :: l => j.strings ++ objStrings l
end

/-- A target that does not start with `#`, whatever is put in for `*`. -/
def NotHash (t : Str) : Prop := ∃ c r, t = c :: r ∧ c ≠ '#' ∧ c ≠ '*'

/-- A `browser` entry: `t` is replaced by `t'`. -/
def BrowserStep (json : Json) (t' t : Str) : Prop :=
  ∃ l, json.get cs!"browser" = some (.obj l) ∧ (t, .str t') ∈ l

/-- A main field with a leading `./`. -/
def dotted (m : Str) : Str := if cs!"./" <+: m then m else cs!"./" ++ m

/-- Where a main field value `m` leads, from the directory `p`: also to the target of a `browser`
entry. -/
def Leads (o : Opts) (pkg : Pkg) (p m x : Str) : Prop :=
  x = pjoin p (dotted m) ∨
    o.browserField = true ∧ ∃ k t, (k, .target t) ∈ pkg.aliasFields ∧ x = targetPath pkg.absDir t

/-- A main field value that names its own directory: it ends the search. -/
def SelfValue (m : Str) : Prop := m = cs!"." ∨ m = cs!"./"

/-- What the main fields `l` of a package lead to, from the directory `p`. After a value that led
nowhere the search goes on from the same directory, or from the one that the value led to. -/
inductive Tries (o : Opts) (pkg : Pkg) : List Str → Str → Str → Prop where
  | here {f p m x : Str} {l : List Str} : pkg.raw.get f = some (.str m) → ¬ SelfValue m →
      Leads o pkg p m x → Tries o pkg (f :: l) p x
  | next {f p q x : Str} {l : List Str} : (∀ m, pkg.raw.get f = some (.str m) → ¬ SelfValue m) →
      q = p ∨ (o.browserField = true ∧ q = pkg.absDir) ∨ (∃ m, pkg.raw.get f = some (.str m) ∧ Leads o pkg p m q) →
      Tries o pkg l q x → Tries o pkg (f :: l) p x

/-- The main fields of the package at the directory `d` lead to the directory `d'`. -/
def MainStep (o : Opts) (fs : Fs) (d' d : Str) : Prop :=
  fs.isDir d' = true ∧ ∃ pkg, Loads o fs d (.ok (some pkg)) ∧ comps d = comps pkg.absDir ∧
    Tries o pkg o.mainFields d d'

/-- The tsconfig at `f` extends the one at `f'`: the resolver finds it there. -/
def ExtendsStep (o : Opts) (fs : Fs) (f' f : Str) : Prop :=
  ∃ doc json s dir i n, fs.read f = some doc ∧ doc.jsonc = .ok (some json) ∧
    json.get cs!"extends" = some (.str s) ∧ pparent f = some dir ∧
    resolveInner (pureCtx o fs false) n ⟨dir, parseRequest s⟩ = .ret (.success (.info i)) ∧
    f' = i.getPath

/-- Nothing goes round in circles: aliases; `browser` entries; targets of exports and imports do not
name an import; main fields; tsconfig files. -/
structure NoCycle (o : Opts) (fs : Fs) : Prop where
  alias : WellFounded (AliasStep o)
  browser : o.browserField = true → ∀ p doc json, fs.read p = some doc → doc.json = some json →
    WellFounded (BrowserStep json)
  exports : ∀ v, IsField fs cs!"exports" v → ∀ t ∈ v.strings, NotHash t
  imports : ∀ v, IsField fs cs!"imports" v → ∀ t ∈ v.strings, NotHash t
  main : WellFounded (MainStep o fs)
  tsconfig : o.tsconfig ≠ none → WellFounded (ExtendsStep o fs)

/-- The system after the first `n` events of an endless schedule. -/
def Sys.at (cfg : Nat → Config) (ser : Json → Str) (s : Sys) (ev : Nat → Event) (n : Nat) : Sys :=
  s.after cfg ser ((List.range n).map ev)

/-- The thread of call number `i` gets to run again and again. -/
def Fair (ev : Nat → Event) (i : Nat) : Prop := ∀ n, ∃ m, n ≤ m ∧ ∃ seed, ev m = .step i seed

/-- Every such call of a resolver comes to an end, in every interleaving with other calls in which its
thread gets to run: it returns or panics (it neither hangs nor runs out of the model's fuel, if there
is enough). -/
def Stops (cfg : Nat → Config) (ser : Json → Str) (fs : Fs) (rid : Nat) (call : Call) : Prop :=
  ∃ n, ∀ ev : Nat → Event, (∀ k, (ev k).calm) → ∀ i, Fair ev i →
    ∀ k t, ((Sys.init fs).at cfg ser ev k).tasks[i]? = some t →
    t.rid = rid → t.call = call → n ≤ t.fuel →
    ∃ m t' o, k ≤ m ∧ ((Sys.init fs).at cfg ser ev m).tasks[i]? = some t' ∧
      t'.prog.outcome = some o ∧ ((∃ a, o = .done a) ∨ ∃ site, o = .crashed (.panic site))

/-- No such call ever comes to an end, however much fuel it has. -/
def Loops (cfg : Nat → Config) (ser : Json → Str) (fs : Fs) (rid : Nat) (call : Call) : Prop :=
  ∀ (l : List Event), (∀ e ∈ l, e.calm) → ∀ t ∈ ((Sys.init fs).after cfg ser l).tasks,
    t.rid = rid → t.call = call → ∀ o, t.prog.outcome = some o → o = .crashed .fuel

end Verif
