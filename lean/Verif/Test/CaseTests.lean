import Verif.Model.Tsconfig
import Verif.Model.Ser
/-!
# Tests (not proofs): port of `tests/cases.rs` with its fixture directory

The tree below is `/repo/tests/fixtures` (symbolic links included). Each test runs its steps
in order on one resolver, in debug mode, and compares with the expectation in `cases.rs`.
-/

set_option maxRecDepth 100000

namespace Verif.Test

/-- A node of a test file system: a file, a directory or a symbolic link. -/
inductive Ent where
  | file (d : Doc) (mtime : Nat)
  | dir (l : List (Str × Ent))
  | link (to : Str)

def entAt : Ent → List Str → Option Ent
  | e, [] => some e
  | .dir l, s :: segs =>
    match alookup s l with
    | some e => entAt e segs
    | none => none
  | _, _ => none

/-- Path walk with symbolic links, from the physical location `loc`. -/
def posixWalk (root : Ent) : Nat → List Str → List Str → Option (List Str)
  | 0, _, _ => none
  | _ + 1, loc, [] => some loc
  | n + 1, loc, s :: segs =>
    match entAt root loc with
    | some (.dir l) =>
      if s = [] || s = cs!"." then posixWalk root n loc segs
      else if s = cs!".." then posixWalk root n loc.dropLast segs
      else match alookup s l with
        | none => none
        | some (.link to) =>
          if isAbs to then posixWalk root n [] (splitC '/' to ++ segs)
          else posixWalk root n loc (splitC '/' to ++ segs)
        | some _ => posixWalk root n (loc ++ [s]) segs
    | _ => none

def lookupPath (root : Ent) (cwd : List Str) (p : Str) : Option (List Str × Ent) :=
  if p = [] then none
  else
    match posixWalk root 1000 (if isAbs p then [] else cwd) (splitC '/' p) with
    | none => none
    | some loc => (entAt root loc).map fun e => (loc, e)

def entFs (root : Ent) (cwd : List Str) : Fs where
  isFile p := match lookupPath root cwd p with | some (_, .file _ _) => true | _ => false
  isDir p := match lookupPath root cwd p with | some (_, .dir _) => true | _ => false
  pathExists p := (lookupPath root cwd p).isSome
  read p := match lookupPath root cwd p with | some (_, .file d _) => some d | _ => none
  mtime p := match lookupPath root cwd p with
    | some (_, .file _ m) => some m
    | some _ => some 0
    | none => none
  canon p := (lookupPath root cwd p).map fun le => '/' :: joinC '/' le.1

def txt : Ent := .file ⟨none, .error []⟩ 0

def fixtures : Ent := .dir [(cs!"a.js", txt),
  (cs!"abc.txt", txt),
  (cs!"alias", .dir [(cs!"a", .dir [(cs!"dir", .dir [(cs!"index", txt)]),
    (cs!"index", txt)]),
   (cs!"b", .dir [(cs!"dir", .dir [(cs!"index", txt)]),
    (cs!"index", txt)]),
   (cs!"c", .dir [(cs!"dir", .dir [(cs!"index", txt)]),
    (cs!"index", txt)]),
   (cs!"d", .dir [(cs!"dir", .dir [(cs!".empty", txt)]),
    (cs!"index.js", txt)]),
   (cs!"e", .dir [(cs!"anotherDir", .dir [(cs!"index", txt)]),
    (cs!"dir", .dir [(cs!"file", txt)]),
    (cs!"index", txt)]),
   (cs!"node_modules", .dir [(cs!"@recursive", .dir [(cs!"general", .dir [(cs!"index.js", txt),
      (cs!"redirect.js", txt)]),
     (cs!"pointed", .dir [(cs!"index.js", txt)])])]),
   (cs!"recursive", .dir [(cs!"dir", .dir [(cs!"index", txt)]),
    (cs!"index", txt)])]),
  (cs!"b.js", txt),
  (cs!"browser-after-main", .dir [(cs!"main.js", txt),
   (cs!"package.json", .file ⟨some (.obj [(cs!"main", .str cs!"main.js"), (cs!"browser", .obj [(cs!"./main.js", .bool false)])]), .ok (some (.obj [(cs!"main", .str cs!"main.js"), (cs!"browser", .obj [(cs!"./main.js", .bool false)])]))⟩ 0)]),
  (cs!"browser-module", .dir [(cs!"browser", .dir [(cs!"module-a.js", txt)]),
   (cs!"lib", .dir [(cs!"browser.js", txt),
    (cs!"ignore.js", txt),
    (cs!"main.js", txt),
    (cs!"redirect.js", txt),
    (cs!"redirect2.js", txt),
    (cs!"redirect3-target", .dir [(cs!"dir", .dir [(cs!"index.js", txt)]),
     (cs!"package.json", .file ⟨some (.obj [(cs!"main", .str cs!"dir")]), .ok (some (.obj [(cs!"main", .str cs!"dir")]))⟩ 0)]),
    (cs!"redirect3.js", txt),
    (cs!"replaced.js", txt),
    (cs!"sub", .dir [(cs!"dir", .dir [(cs!"index.js", txt)]),
     (cs!"package.json", .file ⟨some (.obj [(cs!"main", .str cs!"dir")]), .ok (some (.obj [(cs!"main", .str cs!"dir")]))⟩ 0)]),
    (cs!"sub.js", txt),
    (cs!"toString.js", txt)]),
   (cs!"node_modules", .dir [(cs!"module-a.js", txt),
    (cs!"module-b.js", txt),
    (cs!"module-c.js", txt)]),
   (cs!"package.json", .file ⟨some (.obj [(cs!"browser", .obj [(cs!"./lib/ignore.js", .bool false), (cs!"./lib/replaced.js", .str cs!"./lib/browser"), (cs!"./lib/redirect.js", .str cs!"./lib/sub"), (cs!"./lib/redirect2.js", .str cs!"./lib/sub/"), (cs!"./lib/redirect3.js", .str cs!"./lib/redirect3-target"), (cs!"module-a", .str cs!"./browser/module-a.js"), (cs!"module-b", .str cs!"module-c"), (cs!"module-d", .str cs!"module-b"), (cs!"./toString", .str cs!"./lib/toString.js"), (cs!".", .bool false), (cs!"./util.inspect.js", .bool false)])]), .ok (some (.obj [(cs!"browser", .obj [(cs!"./lib/ignore.js", .bool false), (cs!"./lib/replaced.js", .str cs!"./lib/browser"), (cs!"./lib/redirect.js", .str cs!"./lib/sub"), (cs!"./lib/redirect2.js", .str cs!"./lib/sub/"), (cs!"./lib/redirect3.js", .str cs!"./lib/redirect3-target"), (cs!"module-a", .str cs!"./browser/module-a.js"), (cs!"module-b", .str cs!"module-c"), (cs!"module-d", .str cs!"module-b"), (cs!"./toString", .str cs!"./lib/toString.js"), (cs!".", .bool false), (cs!"./util.inspect.js", .bool false)])]))⟩ 0)]),
  (cs!"c.js", txt),
  (cs!"cache-fs", .dir [(cs!"index.js", txt),
   (cs!"module.js", txt),
   (cs!"package.json", .file ⟨some (.obj [(cs!"main", .str cs!"index.js")]), .ok (some (.obj [(cs!"main", .str cs!"index.js")]))⟩ 0)]),
  (cs!"dependencies", .dir [(cs!"a", .dir [(cs!"b", .dir [(cs!"node_modules", .dir [(cs!"some-module", .dir [(cs!"index.js", txt)])])]),
    (cs!"node_modules", .dir [(cs!"module", .dir [(cs!"file.js", txt),
      (cs!"package.json", .file ⟨some (.obj [(cs!"main", .str cs!"entry.js")]), .ok (some (.obj [(cs!"main", .str cs!"entry.js")]))⟩ 0)])])]),
   (cs!"node_modules", .dir [(cs!"other-module", .dir [(cs!"file.js", txt)])])]),
  (cs!"dirOrFile", .dir [(cs!"index.js", txt)]),
  (cs!"dirOrFile.js", txt),
  (cs!"exports-field", .dir [(cs!"a.js", txt),
   (cs!"b.js", txt),
   (cs!"node_modules", .dir [(cs!"@scope", .dir [(cs!"import-require", .dir [(cs!"dist", .dir [(cs!"cjs", .dir [(cs!"a", .dir [(cs!"index.js", txt)]),
        (cs!"index.js", txt)]),
       (cs!"esm", .dir [(cs!"a", .dir [(cs!"index.js", txt)]),
        (cs!"index.js", txt)])]),
      (cs!"package.json", .file ⟨some (.obj [(cs!"name", .str cs!"import-require"), (cs!"version", .str cs!"1.0.0"), (cs!"main", .str cs!"./main.js"), (cs!"browser", .obj [(cs!"./lib/main.js", .str cs!"./lib/browser.js"), (cs!"./dist/main.js", .str cs!"./lib/browser.js")]), (cs!"exports", .obj [(cs!".", .str cs!"./dist/esm/index.js"), (cs!"./a", .obj [(cs!"import", .str cs!"./dist/esm/a/index.js"), (cs!"require", .str cs!"./dist/cjs/a/index.js")])]), (cs!"sideEffects", .arr [.str cs!"./index.js", .str cs!"./a.js"])]), .ok (some (.obj [(cs!"name", .str cs!"import-require"), (cs!"version", .str cs!"1.0.0"), (cs!"main", .str cs!"./main.js"), (cs!"browser", .obj [(cs!"./lib/main.js", .str cs!"./lib/browser.js"), (cs!"./dist/main.js", .str cs!"./lib/browser.js")]), (cs!"exports", .obj [(cs!".", .str cs!"./dist/esm/index.js"), (cs!"./a", .obj [(cs!"import", .str cs!"./dist/esm/a/index.js"), (cs!"require", .str cs!"./dist/cjs/a/index.js")])]), (cs!"sideEffects", .arr [.str cs!"./index.js", .str cs!"./a.js"])]))⟩ 0)])]),
    (cs!"exports-field", .dir [(cs!"lib", .dir [(cs!"browser.js", txt),
      (cs!"index.js", txt),
      (cs!"lib2", .dir [(cs!"main.js", txt)]),
      (cs!"main.js", txt)]),
     (cs!"main.js", txt),
     (cs!"package.json", .file ⟨some (.obj [(cs!"name", .str cs!"exports-field"), (cs!"version", .str cs!"1.0.0"), (cs!"main", .str cs!"./main.js"), (cs!"browser", .obj [(cs!"./lib/main.js", .str cs!"./lib/browser.js"), (cs!"./dist/main.js", .str cs!"./lib/browser.js")]), (cs!"exports", .obj [(cs!".", .str cs!"./x.js"), (cs!"./dist/", .obj [(cs!"webpack", .arr [.str cs!"./lib/lib2/", .str cs!"./lib/"]), (cs!"node", .str cs!"./lib/"), (cs!"default", .str cs!"./lib/")]), (cs!"./dist/a.js", .str cs!"./../../a.js")]), (cs!"sideEffects", .bool false)]), .ok (some (.obj [(cs!"name", .str cs!"exports-field"), (cs!"version", .str cs!"1.0.0"), (cs!"main", .str cs!"./main.js"), (cs!"browser", .obj [(cs!"./lib/main.js", .str cs!"./lib/browser.js"), (cs!"./dist/main.js", .str cs!"./lib/browser.js")]), (cs!"exports", .obj [(cs!".", .str cs!"./x.js"), (cs!"./dist/", .obj [(cs!"webpack", .arr [.str cs!"./lib/lib2/", .str cs!"./lib/"]), (cs!"node", .str cs!"./lib/"), (cs!"default", .str cs!"./lib/")]), (cs!"./dist/a.js", .str cs!"./../../a.js")]), (cs!"sideEffects", .bool false)]))⟩ 0),
     (cs!"x.js", txt)]),
    (cs!"invalid-exports-field", .dir [(cs!"index.js", txt),
     (cs!"package.json", .file ⟨some (.obj [(cs!"name", .str cs!"exports-field"), (cs!"version", .str cs!"1.0.0"), (cs!"main", .str cs!"./main.js"), (cs!"browser", .obj [(cs!"./lib/main.js", .str cs!"./lib/browser.js"), (cs!"./dist/main.js", .str cs!"./lib/browser.js")]), (cs!"exports", .obj [(cs!".", .str cs!"./index.js"), (cs!"umd", .str cs!"./umd.js")])]), .ok (some (.obj [(cs!"name", .str cs!"exports-field"), (cs!"version", .str cs!"1.0.0"), (cs!"main", .str cs!"./main.js"), (cs!"browser", .obj [(cs!"./lib/main.js", .str cs!"./lib/browser.js"), (cs!"./dist/main.js", .str cs!"./lib/browser.js")]), (cs!"exports", .obj [(cs!".", .str cs!"./index.js"), (cs!"umd", .str cs!"./umd.js")])]))⟩ 0),
     (cs!"umd.js", txt)])]),
   (cs!"package.json", .file ⟨some (.obj [(cs!"name", .str cs!"@exports-field/core"), (cs!"version", .str cs!"1.0.0"), (cs!"exports", .str cs!"./a.js")]), .ok (some (.obj [(cs!"name", .str cs!"@exports-field/core"), (cs!"version", .str cs!"1.0.0"), (cs!"exports", .str cs!"./a.js")]))⟩ 0)]),
  (cs!"exports-field-error", .dir [(cs!"node_modules", .dir [(cs!"exports-field", .dir [(cs!"package.json", .file ⟨some (.obj [(cs!"name", .str cs!"exports-field"), (cs!"version", .str cs!"1.0.0"), (cs!"exports", .obj [(cs!".", .str cs!"./a/../b/../../pack1/index.js")])]), .ok (some (.obj [(cs!"name", .str cs!"exports-field"), (cs!"version", .str cs!"1.0.0"), (cs!"exports", .obj [(cs!".", .str cs!"./a/../b/../../pack1/index.js")])]))⟩ 0)]),
    (cs!"pack1", .dir [(cs!"index.js", txt)])])]),
  (cs!"exports-field2", .dir [(cs!"node_modules", .dir [(cs!"exports-field", .dir [(cs!"index.js", txt),
     (cs!"lib", .dir [(cs!"browser.js", txt),
      (cs!"lib2", .dir [(cs!"main.js", txt)]),
      (cs!"main.js", txt)]),
     (cs!"main.js", txt),
     (cs!"package.json", .file ⟨some (.obj [(cs!"name", .str cs!"exports-field"), (cs!"version", .str cs!"1.0.0"), (cs!"main", .str cs!"./main.js"), (cs!"browser", .obj [(cs!"./lib/main.js", .str cs!"./lib/browser.js"), (cs!"./dist/main.js", .str cs!"./lib/browser.js")]), (cs!"exports", .obj [(cs!".", .str cs!"./index.js"), (cs!"./dist/", .obj [(cs!"webpack", .arr [.str cs!"./lib/lib2/", .str cs!"./lib/"]), (cs!"node", .str cs!"./lib/"), (cs!"default", .str cs!"./lib/")])])]), .ok (some (.obj [(cs!"name", .str cs!"exports-field"), (cs!"version", .str cs!"1.0.0"), (cs!"main", .str cs!"./main.js"), (cs!"browser", .obj [(cs!"./lib/main.js", .str cs!"./lib/browser.js"), (cs!"./dist/main.js", .str cs!"./lib/browser.js")]), (cs!"exports", .obj [(cs!".", .str cs!"./index.js"), (cs!"./dist/", .obj [(cs!"webpack", .arr [.str cs!"./lib/lib2/", .str cs!"./lib/"]), (cs!"node", .str cs!"./lib/"), (cs!"default", .str cs!"./lib/")])])]))⟩ 0)])])]),
  (cs!"exports-field3", .dir [(cs!"node_modules", .dir [(cs!"exports-field", .dir [(cs!"index", txt),
     (cs!"main.js", txt),
     (cs!"package.json", .file ⟨some (.obj [(cs!"name", .str cs!"exports-field"), (cs!"exportsField", .obj [(cs!"exports", .str cs!"./main.js")]), (cs!"ex", .str cs!"./index")]), .ok (some (.obj [(cs!"name", .str cs!"exports-field"), (cs!"exportsField", .obj [(cs!"exports", .str cs!"./main.js")]), (cs!"ex", .str cs!"./index")]))⟩ 0)])])]),
  (cs!"extensions", .dir [(cs!"a.js", txt),
   (cs!"a.ts", txt),
   (cs!"dir", .dir [(cs!"index.js", txt),
    (cs!"index.ts", txt)]),
   (cs!"index.js", txt),
   (cs!"index.ts", txt),
   (cs!"node_modules", .dir [(cs!"m", .dir [(cs!"index.js", txt),
     (cs!"index.ts", txt)]),
    (cs!"m.js", txt)]),
   (cs!"package.json", .file ⟨some (.obj [(cs!"main", .str cs!"./index.js")]), .ok (some (.obj [(cs!"main", .str cs!"./index.js")]))⟩ 0)]),
  (cs!"extensions2", .dir [(cs!"a", txt),
   (cs!"a.js", txt),
   (cs!"b", txt),
   (cs!"index", txt),
   (cs!"index.js", txt),
   (cs!"package.json", .file ⟨some (.obj [(cs!"main", .str cs!"./index.js")]), .ok (some (.obj [(cs!"main", .str cs!"./index.js")]))⟩ 0)]),
  (cs!"full", .dir [(cs!"a", .dir [(cs!"abc.js", txt),
    (cs!"dir", .dir [(cs!"index.js", txt)]),
    (cs!"index.js", txt),
    (cs!"node_modules", .dir [(cs!"package1", .dir [(cs!"file.js", txt),
      (cs!"index.js", txt)]),
     (cs!"package2", .dir [(cs!"a.js", txt),
      (cs!"package.json", .file ⟨some (.obj [(cs!"main", .str cs!"a")]), .ok (some (.obj [(cs!"main", .str cs!"a")]))⟩ 0)]),
     (cs!"package3", .dir [(cs!"dir", .dir [(cs!"index.js", txt)]),
      (cs!"package.json", .file ⟨some (.obj [(cs!"main", .str cs!"dir")]), .ok (some (.obj [(cs!"main", .str cs!"dir")]))⟩ 0)]),
     (cs!"package4", .dir [(cs!"a.js", txt),
      (cs!"b.js", txt),
      (cs!"package.json", .file ⟨some (.obj [(cs!"browser", .obj [(cs!"./a.js", .str cs!"./b")])]), .ok (some (.obj [(cs!"browser", .obj [(cs!"./a.js", .str cs!"./b")])]))⟩ 0)])])])]),
  (cs!"imports-field", .dir [(cs!"a.js", txt),
   (cs!"b.js", txt),
   (cs!"dir", .dir [(cs!"b.js", txt)]),
   (cs!"node_modules", .dir [(cs!"a", .dir [(cs!"lib", .dir [(cs!"browser.js", txt),
      (cs!"index.js", txt),
      (cs!"lib2", .dir [(cs!"main.js", txt)]),
      (cs!"main.js", txt)]),
     (cs!"main.js", txt),
     (cs!"package.json", .file ⟨some (.obj [(cs!"name", .str cs!"a"), (cs!"version", .str cs!"1.0.0"), (cs!"main", .str cs!"./main.js"), (cs!"browser", .obj [(cs!"./lib/main.js", .str cs!"./lib/browser.js"), (cs!"./dist/main.js", .str cs!"./lib/browser.js")]), (cs!"exports", .obj [(cs!".", .str cs!"./x.js"), (cs!"./dist/", .obj [(cs!"webpack", .arr [.str cs!"./lib/lib2/", .str cs!"./lib/"]), (cs!"node", .str cs!"./lib/"), (cs!"default", .str cs!"./lib/")]), (cs!"./dist/a.js", .str cs!"./../../a.js")])]), .ok (some (.obj [(cs!"name", .str cs!"a"), (cs!"version", .str cs!"1.0.0"), (cs!"main", .str cs!"./main.js"), (cs!"browser", .obj [(cs!"./lib/main.js", .str cs!"./lib/browser.js"), (cs!"./dist/main.js", .str cs!"./lib/browser.js")]), (cs!"exports", .obj [(cs!".", .str cs!"./x.js"), (cs!"./dist/", .obj [(cs!"webpack", .arr [.str cs!"./lib/lib2/", .str cs!"./lib/"]), (cs!"node", .str cs!"./lib/"), (cs!"default", .str cs!"./lib/")]), (cs!"./dist/a.js", .str cs!"./../../a.js")])]))⟩ 0),
     (cs!"x.js", txt)]),
    (cs!"c", .dir [(cs!"index.js", txt)])]),
   (cs!"package.json", .file ⟨some (.obj [(cs!"name", .str cs!"imports-field"), (cs!"version", .str cs!"1.0.0"), (cs!"exports", .str cs!"./a.js"), (cs!"imports", .obj [(cs!"#imports-field", .str cs!"./b.js"), (cs!"#b", .str cs!"../b.js"), (cs!"#ccc/", .str cs!"c/"), (cs!"#c", .str cs!"c"), (cs!"#a/", .str cs!"a/"), (cs!"#c-redirect/", .str cs!"#ccc/")]), (cs!"other", .obj [(cs!"imports", .obj [(cs!"#b", .str cs!"./a.js")])])]), .ok (some (.obj [(cs!"name", .str cs!"imports-field"), (cs!"version", .str cs!"1.0.0"), (cs!"exports", .str cs!"./a.js"), (cs!"imports", .obj [(cs!"#imports-field", .str cs!"./b.js"), (cs!"#b", .str cs!"../b.js"), (cs!"#ccc/", .str cs!"c/"), (cs!"#c", .str cs!"c"), (cs!"#a/", .str cs!"a/"), (cs!"#c-redirect/", .str cs!"#ccc/")]), (cs!"other", .obj [(cs!"imports", .obj [(cs!"#b", .str cs!"./a.js")])])]))⟩ 0)]),
  (cs!"incorrect-package", .dir [(cs!"pack1", .dir [(cs!"a.js", txt),
    (cs!"package.json", .file ⟨none, .error []⟩ 0)]),
   (cs!"pack2", .dir [(cs!"a.js", txt),
    (cs!"package.json", .file ⟨none, .ok none⟩ 0)]),
   (cs!"sideeffects-map", .dir [(cs!"index.js", txt),
    (cs!"package.json", .file ⟨some (.obj [(cs!"sideEffects", .obj [])]), .ok (some (.obj [(cs!"sideEffects", .obj [])]))⟩ 0)]),
   (cs!"sideeffects-other-in-array", .dir [(cs!"package.json", .file ⟨some (.obj [(cs!"sideEffects", .arr [.num ⟨cs!"1", by decide⟩])]), .ok (some (.obj [(cs!"sideEffects", .arr [.num ⟨cs!"1", by decide⟩])]))⟩ 0)])]),
  (cs!"m.js", .dir [(cs!"index.js", txt)]),
  (cs!"main-field", .dir [(cs!"index.js", txt),
   (cs!"package.json", .file ⟨some (.obj [(cs!"main", .str cs!"./src/index")]), .ok (some (.obj [(cs!"main", .str cs!"./src/index")]))⟩ 0),
   (cs!"src", .dir [(cs!"index.js", txt)])]),
  (cs!"main-field-inexist", .dir [(cs!"index.js", txt),
   (cs!"module.js", txt),
   (cs!"package.json", .file ⟨some (.obj [(cs!"main", .str cs!"./src/index"), (cs!"module", .str cs!"./module.js")]), .ok (some (.obj [(cs!"main", .str cs!"./src/index"), (cs!"module", .str cs!"./module.js")]))⟩ 0)]),
  (cs!"main-field-self", .dir [(cs!"index.js", txt),
   (cs!"package.json", .file ⟨some (.obj [(cs!"main", .str cs!"./")]), .ok (some (.obj [(cs!"main", .str cs!"./")]))⟩ 0)]),
  (cs!"main-field-self2", .dir [(cs!"index.js", txt),
   (cs!"package.json", .file ⟨some (.obj [(cs!"main", .str cs!".")]), .ok (some (.obj [(cs!"main", .str cs!".")]))⟩ 0)]),
  (cs!"main-filed-no-relative", .dir [(cs!"c.js", txt),
   (cs!"index.js", txt),
   (cs!"node_modules", .dir [(cs!"a", .dir [(cs!"index.js", txt)]),
    (cs!"c", .dir [(cs!"index.js", txt)])]),
   (cs!"package.json", .file ⟨some (.obj [(cs!"main", .str cs!"c"), (cs!"module", .str cs!"a")]), .ok (some (.obj [(cs!"main", .str cs!"c"), (cs!"module", .str cs!"a")]))⟩ 0)]),
  (cs!"main1.js", txt),
  (cs!"main2.js", txt),
  (cs!"main3.js", txt),
  (cs!"multiple_modules", .dir [(cs!"node_modules", .dir [(cs!"m1", .dir [(cs!"a.js", txt)])])]),
  (cs!"no#fragment", .dir [(cs!"#", .dir [(cs!"#.js", txt)])]),
  (cs!"no.js", txt),
  (cs!"node_modules", .dir [(cs!"complexm", .dir [(cs!"node_modules", .dir [(cs!"m1", .dir [(cs!"a.js", txt),
      (cs!"index.js", txt)])]),
    (cs!"step1.js", txt),
    (cs!"step2.js", txt)]),
   (cs!"invalidPackageJson", .dir [(cs!"package.json", .file ⟨none, .ok none⟩ 0)]),
   (cs!"m1", .dir [(cs!"a.js", txt),
    (cs!"b.js", txt)]),
   (cs!"m2", .dir [(cs!"b.js", txt)]),
   (cs!"recursive-module", .dir [(cs!"file.js", txt),
    (cs!"index.js", txt)])]),
  (cs!"pnpm-structure", .dir [(cs!"node_modules", .dir [(cs!"exports-field-a", .dir [(cs!"lib", .dir [(cs!"a.js", txt),
      (cs!"index.js", txt)]),
     (cs!"node_modules", .dir [(cs!".bin", .dir [(cs!"placeholder", txt)])]),
     (cs!"package.json", .file ⟨some (.obj [(cs!"name", .str cs!"exports-field-a"), (cs!"version", .str cs!"1.0.0"), (cs!"main", .str cs!"./main.js"), (cs!"exports", .obj [(cs!".", .str cs!"./lib/index.js"), (cs!"./a", .str cs!"./lib/a.js")])]), .ok (some (.obj [(cs!"name", .str cs!"exports-field-a"), (cs!"version", .str cs!"1.0.0"), (cs!"main", .str cs!"./main.js"), (cs!"exports", .obj [(cs!".", .str cs!"./lib/index.js"), (cs!"./a", .str cs!"./lib/a.js")])]))⟩ 0)]),
    (cs!"exports-field-b", .dir [(cs!"index.js", txt),
     (cs!"package.json", .file ⟨some (.obj [(cs!"name", .str cs!"exports-field-b"), (cs!"version", .str cs!"1.0.0"), (cs!"main", .str cs!"./main.js"), (cs!"exports", .obj [(cs!"./b", .str cs!"./index.js")])]), .ok (some (.obj [(cs!"name", .str cs!"exports-field-b"), (cs!"version", .str cs!"1.0.0"), (cs!"main", .str cs!"./main.js"), (cs!"exports", .obj [(cs!"./b", .str cs!"./index.js")])]))⟩ 0)]),
    (cs!"exports-field-c", .dir [(cs!"lib", .dir [(cs!"b.js", txt),
      (cs!"c.js", txt),
      (cs!"index.js", txt)]),
     (cs!"node_modules", .dir [(cs!".bin", .dir [(cs!"placeholder", txt)])]),
     (cs!"package.json", .file ⟨some (.obj [(cs!"name", .str cs!"exports-field-c"), (cs!"version", .str cs!"1.0.0"), (cs!"main", .str cs!"./main.js"), (cs!"exports", .obj [(cs!".", .str cs!"./lib/index.js"), (cs!"./b", .str cs!"./lib/b.js"), (cs!"./c", .str cs!"./lib/c.js")])]), .ok (some (.obj [(cs!"name", .str cs!"exports-field-c"), (cs!"version", .str cs!"1.0.0"), (cs!"main", .str cs!"./main.js"), (cs!"exports", .obj [(cs!".", .str cs!"./lib/index.js"), (cs!"./b", .str cs!"./lib/b.js"), (cs!"./c", .str cs!"./lib/c.js")])]))⟩ 0)]),
    (cs!"module-a", .dir [(cs!"index.js", txt)]),
    (cs!"module-b", .dir [(cs!"index.js", txt)])])]),
  (cs!"scoped", .dir [(cs!"node_modules", .dir [(cs!"@scope", .dir [(cs!"pack1", .dir [(cs!"main.js", txt),
      (cs!"package.json", .file ⟨some (.obj [(cs!"browser", .obj [(cs!"./index.js", .str cs!"./main.js")])]), .ok (some (.obj [(cs!"browser", .obj [(cs!"./index.js", .str cs!"./main.js")])]))⟩ 0)]),
     (cs!"pack2", .dir [(cs!"lib", .dir [(cs!"index.js", txt)]),
      (cs!"main.js", txt),
      (cs!"package.json", .file ⟨some (.obj [(cs!"main", .str cs!"./main.js")]), .ok (some (.obj [(cs!"main", .str cs!"./main.js")]))⟩ 0)])])])]),
  (cs!"simple", .dir [(cs!"lib", .dir [(cs!"index.js", txt)]),
   (cs!"package.json", .file ⟨some (.obj [(cs!"main", .str cs!"./lib/index.js")]), .ok (some (.obj [(cs!"main", .str cs!"./lib/index.js")]))⟩ 0)]),
  (cs!"symlink", .dir [(cs!"lib", .dir [(cs!"index.js", txt)]),
   (cs!"linked", .dir [(cs!"index.js", .link cs!"../lib/index.js"),
    (cs!"lib", .link cs!"../lib/"),
    (cs!"node.relative.js", .link cs!"../lib/index.js"),
    (cs!"node.relative.sym.js", .link cs!"./node.relative.js"),
    (cs!"outer", .link cs!".."),
    (cs!"that", .link cs!"./this"),
    (cs!"this", .link cs!".")])]),
  (cs!"tsconfig-paths", .dir [(cs!"absolute-in-star.ts", txt),
   (cs!"absolute-in.ts", txt),
   (cs!"actual", .dir [(cs!"test.ts", txt)]),
   (cs!"test0-success.ts", txt),
   (cs!"test1-success.ts", txt),
   (cs!"test2-success", .dir [(cs!"foo.ts", txt)]),
   (cs!"test3-success.ts", txt),
   (cs!"test4-first", .dir [(cs!"foo.ts", txt)]),
   (cs!"test5-second", .dir [(cs!"foo.ts", txt)]),
   (cs!"tsconfig.json", .file ⟨none, .ok (some (.obj [(cs!"compilerOptions", .obj [(cs!"baseUrl", .str cs!"."), (cs!"paths", .obj [(cs!"test0", .arr [.str cs!"./test0-success.ts"]), (cs!"test1/*", .arr [.str cs!"./test1-success.ts"]), (cs!"test2/*", .arr [.str cs!"./test2-success/*"]), (cs!"t*t3/foo", .arr [.str cs!"./test3-succ*s.ts"]), (cs!"test4/*", .arr [.str cs!"./test4-first/*", .str cs!"./test4-second/*"]), (cs!"test5/*", .arr [.str cs!"./test5-first/*", .str cs!"./test5-second/*"]), (cs!"/virtual-in/test", .arr [.str cs!"./actual/test"]), (cs!"/virtual-in-star/*", .arr [.str cs!"./actual/*"])])])]))⟩ 0)]),
  (cs!"tsconfig-paths-extends-from-module", .dir [(cs!"node_modules", .dir [(cs!"@scope", .dir [(cs!"module", .dir [(cs!"tsconfig.json", .file ⟨some (.obj [(cs!"compilerOptions", .obj [(cs!"paths", .obj [(cs!"foo", .arr [.str cs!"./test.ts"])])])]), .ok (some (.obj [(cs!"compilerOptions", .obj [(cs!"paths", .obj [(cs!"foo", .arr [.str cs!"./test.ts"])])])]))⟩ 0)])]),
    (cs!"module", .dir [(cs!"tsconfig.json", .file ⟨some (.obj [(cs!"compilerOptions", .obj [(cs!"paths", .obj [(cs!"foo", .arr [.str cs!"./test.ts"])])])]), .ok (some (.obj [(cs!"compilerOptions", .obj [(cs!"paths", .obj [(cs!"foo", .arr [.str cs!"./test.ts"])])])]))⟩ 0)])]),
   (cs!"src", .dir [(cs!"test.ts", txt)]),
   (cs!"tsconfig.json", .file ⟨none, .ok (some (.obj [(cs!"extends", .str cs!"module/tsconfig.json"), (cs!"compilerOptions", .obj [(cs!"baseUrl", .str cs!"./src")])]))⟩ 0),
   (cs!"tsconfig.scope.json", .file ⟨none, .ok (some (.obj [(cs!"extends", .str cs!"@scope/module/tsconfig.json"), (cs!"compilerOptions", .obj [(cs!"baseUrl", .str cs!"./src")])]))⟩ 0)]),
  (cs!"tsconfig-paths-missing-baseURL", .dir [(cs!"src", .dir [(cs!"test.ts", txt)]),
   (cs!"tsconfig.json", .file ⟨some (.obj [(cs!"extends", .str cs!"./tsconfig.paths.json"), (cs!"compilerOptions", .obj [])]), .ok (some (.obj [(cs!"extends", .str cs!"./tsconfig.paths.json"), (cs!"compilerOptions", .obj [])]))⟩ 0),
   (cs!"tsconfig.paths.json", .file ⟨some (.obj [(cs!"compilerOptions", .obj [(cs!"paths", .obj [(cs!"#/*", .arr [.str cs!"./*"])])])]), .ok (some (.obj [(cs!"compilerOptions", .obj [(cs!"paths", .obj [(cs!"#/*", .arr [.str cs!"./*"])])])]))⟩ 0)]),
  (cs!"tsconfig-paths-nested", .dir [(cs!"absolute-in-star.ts", txt),
   (cs!"absolute-in.ts", txt),
   (cs!"nested", .dir [(cs!"actual", .dir [(cs!"test.ts", txt)]),
    (cs!"test0-success.ts", txt),
    (cs!"test1-success.ts", txt),
    (cs!"test2-success", .dir [(cs!"foo.ts", txt)]),
    (cs!"test3-success.ts", txt),
    (cs!"test4-first", .dir [(cs!"foo.ts", txt)]),
    (cs!"test5-second", .dir [(cs!"foo.ts", txt)])]),
   (cs!"tsconfig.json", .file ⟨none, .ok (some (.obj [(cs!"compilerOptions", .obj [(cs!"baseUrl", .str cs!"nested"), (cs!"paths", .obj [(cs!"test0", .arr [.str cs!"./test0-success.ts"]), (cs!"test1/*", .arr [.str cs!"./test1-success.ts"]), (cs!"test2/*", .arr [.str cs!"./test2-success/*"]), (cs!"t*t3/foo", .arr [.str cs!"./test3-succ*s.ts"]), (cs!"test4/*", .arr [.str cs!"./test4-first/*", .str cs!"./test4-second/*"]), (cs!"test5/*", .arr [.str cs!"./test5-first/*", .str cs!"./test5-second/*"]), (cs!"/virtual-in/test", .arr [.str cs!"./actual/test"]), (cs!"/virtual-in-star/*", .arr [.str cs!"./actual/*"])])])]))⟩ 0)]),
  (cs!"tsconfig-paths-override-baseURL", .dir [(cs!"src", .dir [(cs!"test.ts", txt)]),
   (cs!"tsconfig.json", .file ⟨none, .ok (some (.obj [(cs!"extends", .str cs!"./tsconfig.paths.json"), (cs!"compilerOptions", .obj [(cs!"baseUrl", .str cs!"./src")])]))⟩ 0),
   (cs!"tsconfig.paths.json", .file ⟨some (.obj [(cs!"compilerOptions", .obj [(cs!"paths", .obj [(cs!"#/*", .arr [.str cs!"./*"])])])]), .ok (some (.obj [(cs!"compilerOptions", .obj [(cs!"paths", .obj [(cs!"#/*", .arr [.str cs!"./*"])])])]))⟩ 0)]),
  (cs!"tsconfig-paths-without-baseURL", .dir [(cs!"should-not-be-imported.ts", txt),
   (cs!"tsconfig.json", .file ⟨some (.obj [(cs!"compilerOptions", .obj [(cs!"paths", .obj [(cs!"test", .arr [.str cs!".", .str cs!"..", .str cs!"./good", .str cs!".\\good", .str cs!"../good", .str cs!"..\\good", .str cs!"/good", .str cs!"\\good", .str cs!"c:/good", .str cs!"c:\\good", .str cs!"C:/good", .str cs!"C:\\good", .str cs!"bad", .str cs!"@bad/core", .str cs!".*/bad", .str cs!"..*/bad", .str cs!"c*:\\bad", .str cs!"c:*\\bad", .str cs!"http://bad"])])])]), .ok (some (.obj [(cs!"compilerOptions", .obj [(cs!"paths", .obj [(cs!"test", .arr [.str cs!".", .str cs!"..", .str cs!"./good", .str cs!".\\good", .str cs!"../good", .str cs!"..\\good", .str cs!"/good", .str cs!"\\good", .str cs!"c:/good", .str cs!"c:\\good", .str cs!"C:/good", .str cs!"C:\\good", .str cs!"bad", .str cs!"@bad/core", .str cs!".*/bad", .str cs!"..*/bad", .str cs!"c*:\\bad", .str cs!"c:*\\bad", .str cs!"http://bad"])])])]))⟩ 0)])]

def fixtureFs : Fs :=
  entFs (.dir [(cs!"repo", .dir [(cs!"tests", .dir [(cs!"fixtures", fixtures)])])]) [cs!"repo"]

/-- One step of a test. -/
inductive Step where
  | eq (path req expected : Str)
  | ignored (path req : Str)
  | err (path req msg : Str)

def printJson : Json → Str
  | .obj [] => cs!"{}"
  | .num n => n.text
  | _ => cs!"?"

def runStep (e : Env) (w : World) (s : Step) : Bool × World :=
  match s with
  | .eq p r x =>
    match (resolve e 100 p r).run w with
    | (.done (.ok (.info i)), w) => (pathEq i.join x, w)
    | (_, w) => (false, w)
  | .ignored p r =>
    match (resolve e 100 p r).run w with
    | (.done (.ok .ignored), w) => (true, w)
    | (_, w) => (false, w)
  | .err p r m =>
    match (resolve e 100 p r).run w with
    | (.done (.error err), w) => (containsStr (err.render printJson) m, w)
    | (_, w) => (false, w)

def runSteps (e : Env) : World → List Step → List Bool
  | _, [] => []
  | w, s :: l => let (b, w) := runStep e w s; b :: runSteps e w l

def envOf (o : Opts) : Env := ⟨o.new, fixtureFs, true, 1000000000, serJson⟩

def check (o : Opts) (l : List Step) : Bool :=
  (runSteps (envOf o) (World.init fun _ => 0) l).all id

/-! `extensions_test` -/
#guard check ({ Opts.default with extensions := [cs!".ts", cs!".js"] } : Opts) [
    .eq cs!"/repo/tests/fixtures/extensions/./a" cs!"" cs!"/repo/tests/fixtures/extensions/a.ts",
    .eq cs!"/repo/tests/fixtures/extensions" cs!"./a" cs!"/repo/tests/fixtures/extensions/a.ts",
    .eq cs!"/repo/tests/fixtures/extensions" cs!"./a.js" cs!"/repo/tests/fixtures/extensions/a.js",
    .eq cs!"/repo/tests/fixtures/extensions" cs!"./dir" cs!"/repo/tests/fixtures/extensions/dir/index.ts",
    .eq cs!"/repo/tests/fixtures/extensions" cs!"." cs!"/repo/tests/fixtures/extensions/index.js",
    .eq cs!"/repo/tests/fixtures/extensions/index" cs!"." cs!"/repo/tests/fixtures/extensions/index.ts",
    .eq cs!"/repo/tests/fixtures/extensions/index.js" cs!"." cs!"/repo/tests/fixtures/extensions/index.js",
    .err cs!"/repo/tests/fixtures/extensions/index." cs!"." cs!"Resolve '.' failed in '/repo/tests/fixtures/extensions/index.'",
    .err cs!"/repo/tests/fixtures/extensions/inde" cs!"." cs!"Resolve '.' failed in '/repo/tests/fixtures/extensions/inde'",
    .eq cs!"/repo/tests/fixtures/extensions" cs!"m" cs!"/repo/tests/fixtures/extensions/node_modules/m.js",
    .eq cs!"/repo/tests/fixtures/extensions" cs!"m/" cs!"/repo/tests/fixtures/extensions/node_modules/m/index.ts",
    .err cs!"/repo/tests/fixtures/extensions" cs!"./b.js" cs!"Resolve './b.js' failed in '/repo/tests/fixtures/extensions'",
    .err cs!"/repo/tests/fixtures/extensions" cs!"fs" cs!"Resolve 'fs' failed in '/repo/tests/fixtures/extensions'",
    .err cs!"/repo/tests/fixtures/extensions" cs!"./a.js/" cs!"Resolve './a.js/' failed in '/repo/tests/fixtures/extensions'",
    .err cs!"/repo/tests/fixtures/extensions" cs!"m.js/" cs!"Resolve 'm.js/' failed in '/repo/tests/fixtures/extensions'"]
#guard check ({ Opts.default with extensions := [cs!"ts", cs!".js"] } : Opts) [
    .eq cs!"/repo/tests/fixtures/extensions/./a" cs!"" cs!"/repo/tests/fixtures/extensions/a.js",
    .eq cs!"/repo/tests/fixtures/extensions" cs!"./a" cs!"/repo/tests/fixtures/extensions/a.js",
    .eq cs!"/repo/tests/fixtures/extensions" cs!"./a.js" cs!"/repo/tests/fixtures/extensions/a.js",
    .eq cs!"/repo/tests/fixtures/extensions" cs!"./dir" cs!"/repo/tests/fixtures/extensions/dir/index.js",
    .eq cs!"/repo/tests/fixtures/extensions" cs!"." cs!"/repo/tests/fixtures/extensions/index.js",
    .eq cs!"/repo/tests/fixtures/extensions/index" cs!"." cs!"/repo/tests/fixtures/extensions/index.js",
    .eq cs!"/repo/tests/fixtures/extensions/index.js" cs!"." cs!"/repo/tests/fixtures/extensions/index.js",
    .eq cs!"/repo/tests/fixtures/extensions/index." cs!"." cs!"/repo/tests/fixtures/extensions/index.ts",
    .err cs!"/repo/tests/fixtures/extensions/inde" cs!"." cs!"Resolve '.' failed in '/repo/tests/fixtures/extensions/inde'",
    .eq cs!"/repo/tests/fixtures/extensions" cs!"m" cs!"/repo/tests/fixtures/extensions/node_modules/m.js",
    .eq cs!"/repo/tests/fixtures/extensions" cs!"m/" cs!"/repo/tests/fixtures/extensions/node_modules/m/index.js",
    .err cs!"/repo/tests/fixtures/extensions" cs!"./b.js" cs!"Resolve './b.js' failed in '/repo/tests/fixtures/extensions'",
    .err cs!"/repo/tests/fixtures/extensions" cs!"fs" cs!"Resolve 'fs' failed in '/repo/tests/fixtures/extensions'",
    .err cs!"/repo/tests/fixtures/extensions" cs!"./a.js/" cs!"Resolve './a.js/' failed in '/repo/tests/fixtures/extensions'",
    .err cs!"/repo/tests/fixtures/extensions" cs!"m.js/" cs!"Resolve 'm.js/' failed in '/repo/tests/fixtures/extensions'"]
#guard check ({ Opts.default with extensions := [cs!".js", cs!"", cs!".ts"] } : Opts) [
    .eq cs!"/repo/tests/fixtures/extensions2" cs!"./a" cs!"/repo/tests/fixtures/extensions2/a.js",
    .eq cs!"/repo/tests/fixtures/extensions2" cs!"./a.js" cs!"/repo/tests/fixtures/extensions2/a.js",
    .eq cs!"/repo/tests/fixtures/extensions2" cs!"." cs!"/repo/tests/fixtures/extensions2/index.js",
    .eq cs!"/repo/tests/fixtures/extensions2" cs!"./index" cs!"/repo/tests/fixtures/extensions2/index.js",
    .eq cs!"/repo/tests/fixtures/extensions2" cs!"./b" cs!"/repo/tests/fixtures/extensions2/b"]
#guard check ({ Opts.default with extensions := [cs!".js", cs!"", cs!".ts"], enforceExtension := some false } : Opts) [
    .eq cs!"/repo/tests/fixtures/extensions2" cs!"./a" cs!"/repo/tests/fixtures/extensions2/a",
    .eq cs!"/repo/tests/fixtures/extensions2" cs!"./a.js" cs!"/repo/tests/fixtures/extensions2/a.js",
    .eq cs!"/repo/tests/fixtures/extensions2" cs!"." cs!"/repo/tests/fixtures/extensions2/index.js",
    .eq cs!"/repo/tests/fixtures/extensions2" cs!"./index" cs!"/repo/tests/fixtures/extensions2/index",
    .eq cs!"/repo/tests/fixtures/extensions2" cs!"./b" cs!"/repo/tests/fixtures/extensions2/b"]
/-! `alias_test` -/
#guard check ({ Opts.default with alias := [(cs!"aliasA", .target cs!"./a"), (cs!"./b$", .target cs!"./a/index"), (cs!"recursive", .target cs!"./recursive/dir"), (cs!"#", .target cs!"./c/dir"), (cs!"@", .target cs!"./c/dir"), (cs!"@start", .target cs!"/repo/tests/fixtures/alias"), (cs!"@recursive/pointed", .target cs!"@recursive/general/index.js"), (cs!"@recursive/general", .target cs!"@recursive/general/redirect.js"), (cs!"@recursive", .target cs!"@recursive/general"), (cs!"ignore", .ignored)] } : Opts) [
    .eq cs!"/repo/tests/fixtures/alias" cs!"@recursive/index" cs!"/repo/tests/fixtures/alias/node_modules/@recursive/general/index.js",
    .eq cs!"/repo/tests/fixtures/alias" cs!"@recursive/general" cs!"/repo/tests/fixtures/alias/node_modules/@recursive/general/redirect.js",
    .eq cs!"/repo/tests/fixtures/alias" cs!"@recursive/pointed" cs!"/repo/tests/fixtures/alias/node_modules/@recursive/general/index.js",
    .eq cs!"/repo/tests/fixtures/in_exist_path" cs!"@start/a" cs!"/repo/tests/fixtures/alias/a/index",
    .eq cs!"/repo/tests/fixtures/alias" cs!"./a" cs!"/repo/tests/fixtures/alias/a/index",
    .eq cs!"/repo/tests/fixtures/alias" cs!"./a/index" cs!"/repo/tests/fixtures/alias/a/index",
    .eq cs!"/repo/tests/fixtures/alias" cs!"./a/dir" cs!"/repo/tests/fixtures/alias/a/dir/index",
    .eq cs!"/repo/tests/fixtures/alias" cs!"./a/dir/index" cs!"/repo/tests/fixtures/alias/a/dir/index",
    .eq cs!"/repo/tests/fixtures/alias" cs!"aliasA" cs!"/repo/tests/fixtures/alias/a/index",
    .eq cs!"/repo/tests/fixtures/alias" cs!"aliasA/index" cs!"/repo/tests/fixtures/alias/a/index",
    .eq cs!"/repo/tests/fixtures/alias" cs!"aliasA/dir" cs!"/repo/tests/fixtures/alias/a/dir/index",
    .eq cs!"/repo/tests/fixtures/alias" cs!"aliasA/dir/index" cs!"/repo/tests/fixtures/alias/a/dir/index",
    .eq cs!"/repo/tests/fixtures/alias" cs!"#" cs!"/repo/tests/fixtures/alias/c/dir/index",
    .eq cs!"/repo/tests/fixtures/alias" cs!"#/index" cs!"/repo/tests/fixtures/alias/c/dir/index",
    .eq cs!"/repo/tests/fixtures/alias" cs!"@" cs!"/repo/tests/fixtures/alias/c/dir/index",
    .eq cs!"/repo/tests/fixtures/alias" cs!"@/index" cs!"/repo/tests/fixtures/alias/c/dir/index",
    .err cs!"/repo/tests/fixtures/alias" cs!"@/a.js" cs!"Resolve '@/a.js' failed in '/repo/tests/fixtures/alias'",
    .eq cs!"/repo/tests/fixtures/alias" cs!"recursive" cs!"/repo/tests/fixtures/alias/recursive/dir/index",
    .eq cs!"/repo/tests/fixtures/alias" cs!"recursive/index" cs!"/repo/tests/fixtures/alias/recursive/dir/index",
    .eq cs!"/repo/tests/fixtures/in_exist_path" cs!"@start/a" cs!"/repo/tests/fixtures/alias/a/index",
    .err cs!"@start/a" cs!"" cs!"Resolve '' failed in '@start/a'",
    .eq cs!"/repo/tests/fixtures/alias" cs!"./b/index" cs!"/repo/tests/fixtures/alias/b/index",
    .eq cs!"/repo/tests/fixtures/alias" cs!"./b/dir" cs!"/repo/tests/fixtures/alias/b/dir/index",
    .eq cs!"/repo/tests/fixtures/alias" cs!"./b/dir/index" cs!"/repo/tests/fixtures/alias/b/dir/index",
    .eq cs!"/repo/tests/fixtures/alias" cs!"./c/index" cs!"/repo/tests/fixtures/alias/c/index",
    .eq cs!"/repo/tests/fixtures/alias" cs!"./c/dir" cs!"/repo/tests/fixtures/alias/c/dir/index",
    .eq cs!"/repo/tests/fixtures/alias" cs!"./c/dir/index" cs!"/repo/tests/fixtures/alias/c/dir/index",
    .ignored cs!"/repo/tests/fixtures/alias" cs!"ignore"]
#guard check ({ Opts.default with alias := [(cs!"@A/index", .target cs!"./a"), (cs!"@A", .target cs!"./b")] } : Opts) [
    .eq cs!"/repo/tests/fixtures/alias" cs!"@A/index" cs!"/repo/tests/fixtures/alias/a/index"]
#guard check ({ Opts.default with alias := [(cs!"@A", .target cs!"./b"), (cs!"@A/index", .target cs!"./a")] } : Opts) [
    .eq cs!"/repo/tests/fixtures/alias" cs!"@A/index" cs!"/repo/tests/fixtures/alias/b/index"]
/-! `symlink_test` -/
#guard check ({ Opts.default with symlinks := true } : Opts) [
    .eq cs!"/repo/tests/fixtures/symlink/linked" cs!"./index.js" cs!"/repo/tests/fixtures/symlink/lib/index.js",
    .eq cs!"/repo/tests/fixtures/symlink/linked" cs!"./node.relative.js" cs!"/repo/tests/fixtures/symlink/lib/index.js",
    .eq cs!"/repo/tests/fixtures/symlink/linked" cs!"./node.relative.sym.js" cs!"/repo/tests/fixtures/symlink/lib/index.js",
    .eq cs!"/repo/tests/fixtures/symlink/linked" cs!"./this/lib/index.js" cs!"/repo/tests/fixtures/symlink/lib/index.js",
    .eq cs!"/repo/tests/fixtures/symlink/linked" cs!"./this/this/index.js" cs!"/repo/tests/fixtures/symlink/lib/index.js",
    .eq cs!"/repo/tests/fixtures/symlink/linked" cs!"./outer/lib/index.js" cs!"/repo/tests/fixtures/symlink/lib/index.js",
    .eq cs!"/repo/tests/fixtures/symlink/linked" cs!"./outer/linked/index.js" cs!"/repo/tests/fixtures/symlink/lib/index.js",
    .eq cs!"/repo/tests/fixtures/symlink/linked" cs!"./outer/linked/this/index.js" cs!"/repo/tests/fixtures/symlink/lib/index.js",
    .eq cs!"/repo/tests/fixtures/symlink/linked" cs!"./outer/linked/this/lib/index.js" cs!"/repo/tests/fixtures/symlink/lib/index.js",
    .eq cs!"/repo/tests/fixtures/symlink/linked" cs!"./that/lib/index.js" cs!"/repo/tests/fixtures/symlink/lib/index.js",
    .eq cs!"/repo/tests/fixtures/symlink/linked" cs!"./that/outer/lib/index.js" cs!"/repo/tests/fixtures/symlink/lib/index.js",
    .eq cs!"/repo/tests/fixtures/symlink/linked" cs!"./that/outer/linked/lib/index.js" cs!"/repo/tests/fixtures/symlink/lib/index.js",
    .eq cs!"/repo/tests/fixtures/symlink/linked" cs!"./that/outer/linked/that/lib/index.js" cs!"/repo/tests/fixtures/symlink/lib/index.js",
    .eq cs!"/repo/tests/fixtures/symlink" cs!"./lib/index.js" cs!"/repo/tests/fixtures/symlink/lib/index.js",
    .eq cs!"/repo/tests/fixtures/symlink/linked/this" cs!"./lib/index.js" cs!"/repo/tests/fixtures/symlink/lib/index.js",
    .eq cs!"/repo/tests/fixtures/symlink/linked/this" cs!"./outer/linked/lib/index.js" cs!"/repo/tests/fixtures/symlink/lib/index.js",
    .eq cs!"/repo/tests/fixtures/symlink/linked/this/lib" cs!"./index.js" cs!"/repo/tests/fixtures/symlink/lib/index.js",
    .eq cs!"/repo/tests/fixtures/symlink/linked/this/outer/linked" cs!"./index.js" cs!"/repo/tests/fixtures/symlink/lib/index.js",
    .eq cs!"/repo/tests/fixtures/symlink/linked/this/outer/linked" cs!"./lib/index.js" cs!"/repo/tests/fixtures/symlink/lib/index.js",
    .eq cs!"/repo/tests/fixtures/symlink/linked/that" cs!"./lib/index.js" cs!"/repo/tests/fixtures/symlink/lib/index.js",
    .eq cs!"/repo/tests/fixtures/symlink/linked/that" cs!"./outer/linked/lib/index.js" cs!"/repo/tests/fixtures/symlink/lib/index.js",
    .eq cs!"/repo/tests/fixtures/symlink/linked/that/lib" cs!"./index.js" cs!"/repo/tests/fixtures/symlink/lib/index.js",
    .eq cs!"/repo/tests/fixtures/symlink/linked/that/outer/linked" cs!"./index.js" cs!"/repo/tests/fixtures/symlink/lib/index.js",
    .eq cs!"/repo/tests/fixtures/symlink/linked/that/outer/linked" cs!"./lib/index.js" cs!"/repo/tests/fixtures/symlink/lib/index.js"]
#guard check ({ Opts.default with symlinks := false } : Opts) [
    .eq cs!"/repo/tests/fixtures/symlink/linked" cs!"./index.js" cs!"/repo/tests/fixtures/symlink/linked/index.js",
    .eq cs!"/repo/tests/fixtures/symlink/linked" cs!"./this/this/index.js" cs!"/repo/tests/fixtures/symlink/linked/this/this/index.js"]
/-! `simple_test` -/
#guard check ({ Opts.default with symlinks := true } : Opts) [
    .eq cs!"/repo/tests/fixtures/in-exist-path" cs!"/repo/tests/fixtures/simple/lib/index" cs!"/repo/tests/fixtures/simple/lib/index.js",
    .eq cs!"/repo/tests/fixtures/simple" cs!"./lib/index" cs!"/repo/tests/fixtures/simple/lib/index.js",
    .eq cs!"/repo/tests/fixtures/simple" cs!"." cs!"/repo/tests/fixtures/simple/lib/index.js",
    .eq cs!"/repo/tests/fixtures/simple" cs!"" cs!"/repo/tests/fixtures/simple/lib/index.js",
    .eq cs!"/repo/tests/fixtures/simple/.." cs!"./simple" cs!"/repo/tests/fixtures/simple/lib/index.js",
    .eq cs!"/repo/tests/fixtures/simple/.." cs!"./simple/lib/index" cs!"/repo/tests/fixtures/simple/lib/index.js",
    .eq cs!"/repo/tests/fixtures/in-exist-path" cs!"/repo/tests/fixtures/simple/lib/index" cs!"/repo/tests/fixtures/simple/lib/index.js"]
/-! `pnpm_structure_test` -/
#guard check ({ Opts.default with symlinks := true } : Opts) [
    .eq cs!"/repo/tests/fixtures/pnpm-structure/node_modules/exports-field-c/lib" cs!"exports-field-b/b" cs!"/repo/tests/fixtures/pnpm-structure/node_modules/exports-field-b/index.js",
    .err cs!"/repo/tests/fixtures/pnpm-structure/node_modules/exports-field-c" cs!"./b" cs!"Resolve './b' failed in '/repo/tests/fixtures/pnpm-structure/node_modules/exports-field-c'",
    .eq cs!"/repo/tests/fixtures/pnpm-structure/node_modules/exports-field-c/lib" cs!"./b" cs!"/repo/tests/fixtures/pnpm-structure/node_modules/exports-field-c/lib/b.js",
    .eq cs!"/repo/tests/fixtures/pnpm-structure/node_modules/exports-field-a/lib" cs!"exports-field-b/b" cs!"/repo/tests/fixtures/pnpm-structure/node_modules/exports-field-b/index.js",
    .eq cs!"/repo/tests/fixtures/pnpm-structure/node_modules/exports-field-a" cs!"exports-field-b/b" cs!"/repo/tests/fixtures/pnpm-structure/node_modules/exports-field-b/index.js",
    .eq cs!"/repo/tests/fixtures/pnpm-structure/node_modules/exports-field-a" cs!"./lib" cs!"/repo/tests/fixtures/pnpm-structure/node_modules/exports-field-a/lib/index.js",
    .err cs!"/repo/tests/fixtures/pnpm-structure/node_modules/exports-field-a" cs!"exports-field-b" cs!"Package path exports-field-b is not exported",
    .eq cs!"/repo/tests/fixtures/pnpm-structure/module-a" cs!"module-b" cs!"/repo/tests/fixtures/pnpm-structure/node_modules/module-b/index.js",
    .eq cs!"/repo/tests/fixtures/pnpm-structure/node_modules/module-a" cs!"module-b" cs!"/repo/tests/fixtures/pnpm-structure/node_modules/module-b/index.js"]
/-! `resolve_test` -/
#guard check ({ Opts.default with symlinks := true } : Opts) [
    .eq cs!"/repo/tests/fixtures" cs!"m1/a.js" cs!"/repo/tests/fixtures/node_modules/m1/a.js",
    .eq cs!"/repo/tests/fixtures" cs!"/repo/tests/fixtures/main1.js" cs!"/repo/tests/fixtures/main1.js",
    .eq cs!"/repo/tests/fixtures" cs!"./main1.js" cs!"/repo/tests/fixtures/main1.js",
    .eq cs!"/repo/tests/fixtures" cs!"./main1" cs!"/repo/tests/fixtures/main1.js",
    .eq cs!"/repo/tests/fixtures" cs!"./main1.js?query" cs!"/repo/tests/fixtures/main1.js?query",
    .eq cs!"/repo/tests/fixtures" cs!"./main1.js#fragment" cs!"/repo/tests/fixtures/main1.js#fragment",
    .eq cs!"/repo/tests/fixtures" cs!"./main1.js#fragment?query" cs!"/repo/tests/fixtures/main1.js#fragment?query",
    .eq cs!"/repo/tests/fixtures" cs!"./main1.js?#fragment" cs!"/repo/tests/fixtures/main1.js?#fragment",
    .eq cs!"/repo/tests/fixtures" cs!"./a.js" cs!"/repo/tests/fixtures/a.js",
    .eq cs!"/repo/tests/fixtures" cs!"./a" cs!"/repo/tests/fixtures/a.js",
    .eq cs!"/repo/tests/fixtures" cs!"m1/a.js" cs!"/repo/tests/fixtures/node_modules/m1/a.js",
    .eq cs!"/repo/tests/fixtures" cs!"m1/a" cs!"/repo/tests/fixtures/node_modules/m1/a.js",
    .eq cs!"/repo/tests/fixtures" cs!"m1/a?query" cs!"/repo/tests/fixtures/node_modules/m1/a.js?query",
    .eq cs!"/repo/tests/fixtures" cs!"m1/a#fragment" cs!"/repo/tests/fixtures/node_modules/m1/a.js#fragment",
    .eq cs!"/repo/tests/fixtures" cs!"m1/a#fragment?query" cs!"/repo/tests/fixtures/node_modules/m1/a.js#fragment?query",
    .eq cs!"/repo/tests/fixtures" cs!"m1/a?#fragment" cs!"/repo/tests/fixtures/node_modules/m1/a.js?#fragment",
    .eq cs!"/repo/tests/fixtures" cs!"./dirOrFile" cs!"/repo/tests/fixtures/dirOrFile.js",
    .eq cs!"/repo/tests/fixtures" cs!"./dirOrFile/" cs!"/repo/tests/fixtures/dirOrFile/index.js",
    .eq cs!"/repo/tests/fixtures" cs!"complexm/step1" cs!"/repo/tests/fixtures/node_modules/complexm/step1.js",
    .eq cs!"/repo/tests/fixtures" cs!"m2/b.js" cs!"/repo/tests/fixtures/node_modules/m2/b.js",
    .eq cs!"/repo/tests/fixtures" cs!"./no#fragment/#/" cs!"/repo/tests/fixtures/no.js#fragment/#",
    .eq cs!"/repo/tests/fixtures/node_modules/complexm/web_modules/m1" cs!"m2/b.js" cs!"/repo/tests/fixtures/node_modules/m2/b.js",
    .eq cs!"/repo/tests/fixtures/multiple_modules" cs!"m1/a.js" cs!"/repo/tests/fixtures/multiple_modules/node_modules/m1/a.js",
    .eq cs!"/repo/tests/fixtures/multiple_modules" cs!"m1/b.js" cs!"/repo/tests/fixtures/node_modules/m1/b.js",
    .eq cs!"/repo/tests/fixtures/browser-module/node_modules" cs!"m1/a" cs!"/repo/tests/fixtures/node_modules/m1/a.js"]
/-! `browser_filed_test` -/
#guard check ({ Opts.default with browserField := true } : Opts) [
    .ignored cs!"/repo/tests/fixtures/browser-after-main" cs!".",
    .ignored cs!"/repo/tests/fixtures" cs!"./browser-after-main",
    .eq cs!"/repo/tests/fixtures/browser-module" cs!"./lib/redirect2" cs!"/repo/tests/fixtures/browser-module/lib/sub/dir/index.js",
    .ignored cs!"/repo/tests/fixtures/browser-module" cs!".",
    .ignored cs!"/repo/tests/fixtures/browser-module" cs!"./lib/ignore",
    .ignored cs!"/repo/tests/fixtures/browser-module" cs!"./lib/ignore.js",
    .ignored cs!"/repo/tests/fixtures/browser-module" cs!"./util.inspect",
    .ignored cs!"/repo/tests/fixtures/browser-module" cs!"./util.inspect.js",
    .eq cs!"/repo/tests/fixtures/browser-module" cs!"./lib/replaced" cs!"/repo/tests/fixtures/browser-module/lib/browser.js",
    .eq cs!"/repo/tests/fixtures/browser-module" cs!"./lib/replaced.js" cs!"/repo/tests/fixtures/browser-module/lib/browser.js",
    .eq cs!"/repo/tests/fixtures/browser-module" cs!"module-a" cs!"/repo/tests/fixtures/browser-module/browser/module-a.js",
    .eq cs!"/repo/tests/fixtures/browser-module" cs!"module-b" cs!"/repo/tests/fixtures/browser-module/node_modules/module-c.js",
    .eq cs!"/repo/tests/fixtures/browser-module" cs!"module-d" cs!"/repo/tests/fixtures/browser-module/node_modules/module-c.js",
    .eq cs!"/repo/tests/fixtures/browser-module" cs!"./toString" cs!"/repo/tests/fixtures/browser-module/lib/toString.js",
    .err cs!"/repo/tests/fixtures/browser-module" cs!"toString" cs!"Resolve 'toString' failed in '/repo/tests/fixtures/browser-module'",
    .err cs!"/repo/tests/fixtures/browser-module" cs!"./toString.js" cs!"Resolve './toString.js' failed in '/repo/tests/fixtures/browser-module'",
    .eq cs!"/repo/tests/fixtures/browser-module" cs!"./lib/redirect" cs!"/repo/tests/fixtures/browser-module/lib/sub.js",
    .eq cs!"/repo/tests/fixtures/browser-module" cs!"./lib/redirect2" cs!"/repo/tests/fixtures/browser-module/lib/sub/dir/index.js",
    .eq cs!"/repo/tests/fixtures/browser-module" cs!"./lib/redirect3" cs!"/repo/tests/fixtures/browser-module/lib/redirect3-target/dir/index.js",
    .ignored cs!"/repo/tests/fixtures/browser-module/lib" cs!"./ignore",
    .ignored cs!"/repo/tests/fixtures/browser-module/lib" cs!"./ignore.js",
    .eq cs!"/repo/tests/fixtures/browser-module/lib" cs!"./toString" cs!"/repo/tests/fixtures/browser-module/lib/toString.js",
    .eq cs!"/repo/tests/fixtures/browser-module/lib" cs!"./toString.js" cs!"/repo/tests/fixtures/browser-module/lib/toString.js",
    .eq cs!"/repo/tests/fixtures/browser-module/lib" cs!"./replaced" cs!"/repo/tests/fixtures/browser-module/lib/browser.js",
    .eq cs!"/repo/tests/fixtures/browser-module/lib" cs!"./replaced.js" cs!"/repo/tests/fixtures/browser-module/lib/browser.js",
    .eq cs!"/repo/tests/fixtures/browser-module/lib" cs!"module-a" cs!"/repo/tests/fixtures/browser-module/browser/module-a.js",
    .eq cs!"/repo/tests/fixtures/browser-module/lib" cs!"module-b" cs!"/repo/tests/fixtures/browser-module/node_modules/module-c.js",
    .eq cs!"/repo/tests/fixtures/browser-module/lib" cs!"module-d" cs!"/repo/tests/fixtures/browser-module/node_modules/module-c.js",
    .eq cs!"/repo/tests/fixtures/browser-module/lib" cs!"./redirect" cs!"/repo/tests/fixtures/browser-module/lib/sub.js",
    .eq cs!"/repo/tests/fixtures/browser-module/lib" cs!"./redirect2" cs!"/repo/tests/fixtures/browser-module/lib/sub/dir/index.js",
    .eq cs!"/repo/tests/fixtures/browser-module/lib" cs!"./redirect3" cs!"/repo/tests/fixtures/browser-module/lib/redirect3-target/dir/index.js",
    .ignored cs!"/repo/tests/fixtures/browser-after-main" cs!".",
    .ignored cs!"/repo/tests/fixtures" cs!"./browser-after-main"]
/-! `dependencies_test` -/
#guard check ({ Opts.default with extensions := [cs!".json", cs!".js"] } : Opts) [
    .eq cs!"/repo/tests/fixtures/dependencies/a/b/c" cs!"some-module/index" cs!"/repo/tests/fixtures/dependencies/a/b/node_modules/some-module/index.js",
    .eq cs!"/repo/tests/fixtures/dependencies/a/b/c" cs!"module/file" cs!"/repo/tests/fixtures/dependencies/a/node_modules/module/file.js",
    .eq cs!"/repo/tests/fixtures/dependencies/a/b/c" cs!"other-module/file.js" cs!"/repo/tests/fixtures/dependencies/node_modules/other-module/file.js",
    .eq cs!"/repo/tests/fixtures/dependencies/a/b" cs!"some-module/index" cs!"/repo/tests/fixtures/dependencies/a/b/node_modules/some-module/index.js",
    .eq cs!"/repo/tests/fixtures/dependencies/a/b" cs!"module/file" cs!"/repo/tests/fixtures/dependencies/a/node_modules/module/file.js",
    .eq cs!"/repo/tests/fixtures/dependencies/a/b" cs!"other-module/file.js" cs!"/repo/tests/fixtures/dependencies/node_modules/other-module/file.js"]
/-! `full_specified_test` -/
#guard check ({ Opts.default with alias := [(cs!"alias1", .target cs!"./abc"), (cs!"alias2", .target cs!"./")], browserField := true } : Opts) [
    .eq cs!"/repo/tests/fixtures/full/a" cs!"package4/a.js" cs!"/repo/tests/fixtures/full/a/node_modules/package4/b.js",
    .eq cs!"/repo/tests/fixtures/full/a" cs!"./abc.js" cs!"/repo/tests/fixtures/full/a/abc.js",
    .eq cs!"/repo/tests/fixtures/full/a" cs!"package1/file.js" cs!"/repo/tests/fixtures/full/a/node_modules/package1/file.js",
    .eq cs!"/repo/tests/fixtures/full/a" cs!"package1" cs!"/repo/tests/fixtures/full/a/node_modules/package1/index.js",
    .eq cs!"/repo/tests/fixtures/full/a" cs!"package2" cs!"/repo/tests/fixtures/full/a/node_modules/package2/a.js",
    .eq cs!"/repo/tests/fixtures/full/a" cs!"alias1" cs!"/repo/tests/fixtures/full/a/abc.js",
    .eq cs!"/repo/tests/fixtures/full/a" cs!"alias2" cs!"/repo/tests/fixtures/full/a/index.js",
    .eq cs!"/repo/tests/fixtures/full/a" cs!"package3" cs!"/repo/tests/fixtures/full/a/node_modules/package3/dir/index.js",
    .eq cs!"/repo/tests/fixtures/full/a" cs!"package3/dir" cs!"/repo/tests/fixtures/full/a/node_modules/package3/dir/index.js",
    .eq cs!"/repo/tests/fixtures/full/a" cs!"package4/a.js" cs!"/repo/tests/fixtures/full/a/node_modules/package4/b.js",
    .eq cs!"/repo/tests/fixtures/full/a" cs!"." cs!"/repo/tests/fixtures/full/a/index.js",
    .eq cs!"/repo/tests/fixtures/full/a" cs!"./" cs!"/repo/tests/fixtures/full/a/index.js",
    .eq cs!"/repo/tests/fixtures/full/a" cs!"./dir" cs!"/repo/tests/fixtures/full/a/dir/index.js",
    .eq cs!"/repo/tests/fixtures/full/a" cs!"./dir/" cs!"/repo/tests/fixtures/full/a/dir/index.js",
    .eq cs!"/repo/tests/fixtures/full/a" cs!"./dir?123#456" cs!"/repo/tests/fixtures/full/a/dir/index.js?123#456",
    .eq cs!"/repo/tests/fixtures/full/a" cs!"./dir/?123#456" cs!"/repo/tests/fixtures/full/a/dir/index.js?123#456"]
/-! `missing_test` -/
#guard check ({ Opts.default with symlinks := true } : Opts) [
    .err cs!"/repo/tests/fixtures" cs!"./missing-file" cs!"Resolve './missing-file' failed in '/repo/tests/fixtures'",
    .err cs!"/repo/tests/fixtures" cs!"./missing-file.js" cs!"Resolve './missing-file.js' failed in '/repo/tests/fixtures'",
    .err cs!"/repo/tests/fixtures" cs!"missing-module" cs!"Resolve 'missing-module' failed in '/repo/tests/fixtures'",
    .err cs!"/repo/tests/fixtures" cs!"missing-module/missing-file" cs!"Resolve 'missing-module/missing-file' failed in '/repo/tests/fixtures'",
    .err cs!"/repo/tests/fixtures" cs!"m1/missing-file" cs!"Resolve 'm1/missing-file' failed in '/repo/tests/fixtures'",
    .err cs!"/repo/tests/fixtures" cs!"m1/" cs!"Resolve 'm1/' failed in '/repo/tests/fixtures'",
    .eq cs!"/repo/tests/fixtures" cs!"m1/a" cs!"/repo/tests/fixtures/node_modules/m1/a.js"]
/-! `incorrect_package_test` -/
#guard check ({ Opts.default with symlinks := true } : Opts) [
    .err cs!"/repo/tests/fixtures/incorrect-package/pack1" cs!"." cs!"Parse",
    .err cs!"/repo/tests/fixtures/incorrect-package/pack2" cs!"." cs!"Parse"]
/-! `scoped_packages_test` -/
#guard check ({ Opts.default with browserField := true } : Opts) [
    .eq cs!"/repo/tests/fixtures/scoped" cs!"@scope/pack1" cs!"/repo/tests/fixtures/scoped/node_modules/@scope/pack1/main.js",
    .eq cs!"/repo/tests/fixtures/scoped" cs!"@scope/pack1/main" cs!"/repo/tests/fixtures/scoped/node_modules/@scope/pack1/main.js",
    .eq cs!"/repo/tests/fixtures/scoped" cs!"@scope/pack2" cs!"/repo/tests/fixtures/scoped/node_modules/@scope/pack2/main.js",
    .eq cs!"/repo/tests/fixtures/scoped" cs!"@scope/pack2/main" cs!"/repo/tests/fixtures/scoped/node_modules/@scope/pack2/main.js",
    .eq cs!"/repo/tests/fixtures/scoped" cs!"@scope/pack2/lib" cs!"/repo/tests/fixtures/scoped/node_modules/@scope/pack2/lib/index.js"]
/-! `exports_fields_test` -/
#guard check ({ Opts.default with conditionNames := [cs!"import"] } : Opts) [
    .eq cs!"/repo/tests/fixtures/exports-field" cs!"@scope/import-require" cs!"/repo/tests/fixtures/exports-field/node_modules/@scope/import-require/dist/esm/index.js",
    .eq cs!"/repo/tests/fixtures/exports-field" cs!"@scope/import-require/a" cs!"/repo/tests/fixtures/exports-field/node_modules/@scope/import-require/dist/esm/a/index.js"]
#guard check ({ Opts.default with extensions := [cs!".js"], conditionNames := [cs!"require"] } : Opts) [
    .eq cs!"/repo/tests/fixtures/exports-field" cs!"@scope/import-require" cs!"/repo/tests/fixtures/exports-field/node_modules/@scope/import-require/dist/esm/index.js",
    .eq cs!"/repo/tests/fixtures/exports-field" cs!"@scope/import-require/a" cs!"/repo/tests/fixtures/exports-field/node_modules/@scope/import-require/dist/cjs/a/index.js"]
#guard check ({ Opts.default with extensions := [cs!".js"], conditionNames := [cs!"webpack"] } : Opts) [
    .err cs!"/repo/tests/fixtures/exports-field" cs!"@exports-field/coreaaaa" cs!"Resolve '@exports-field/coreaaaa' failed in '/repo/tests/fixtures/exports-field'",
    .err cs!"/repo/tests/fixtures/exports-field" cs!"exports-field/x.js" cs!"Package path exports-field/x.js is not exported",
    .err cs!"/repo/tests/fixtures/exports-field" cs!"exports-field/dist/a.js" cs!"Package path exports-field/dist/a.js is not exported",
    .err cs!"/repo/tests/fixtures/exports-field" cs!"exports-field/dist/../../../a.js" cs!"Package path exports-field/dist/../../../a.js is not exported",
    .eq cs!"/repo/tests/fixtures/exports-field" cs!"exports-field/dist/main.js" cs!"/repo/tests/fixtures/exports-field/node_modules/exports-field/lib/lib2/main.js",
    .eq cs!"/repo/tests/fixtures/exports-field" cs!"@exports-field/core" cs!"/repo/tests/fixtures/exports-field/a.js",
    .eq cs!"/repo/tests/fixtures/exports-field" cs!"./b" cs!"/repo/tests/fixtures/exports-field/b.js",
    .eq cs!"/repo/tests/fixtures/exports-field" cs!"./a" cs!"/repo/tests/fixtures/exports-field/a.js",
    .err cs!"/repo/tests/fixtures/exports-field" cs!"@exports-field/core/a" cs!"Package path @exports-field/core/a is not exported",
    .eq cs!"/repo/tests/fixtures/exports-field" cs!"./node_modules/exports-field/lib/main.js" cs!"/repo/tests/fixtures/exports-field/node_modules/exports-field/lib/main.js",
    .err cs!"/repo/tests/fixtures/exports-field" cs!"./node_modules/exports-field/dist/main" cs!"Resolve './node_modules/exports-field/dist/main' failed in '/repo/tests/fixtures/exports-field'",
    .err cs!"/repo/tests/fixtures/exports-field" cs!"exports-field/anything/else" cs!"Package path exports-field/anything/else is not exported",
    .err cs!"/repo/tests/fixtures/exports-field" cs!"exports-field/" cs!"Only requesting file allowed",
    .err cs!"/repo/tests/fixtures/exports-field" cs!"exports-field/dist" cs!"Package path exports-field/dist is not exported",
    .err cs!"/repo/tests/fixtures/exports-field" cs!"exports-field/lib" cs!"Package path exports-field/lib is not exported",
    .err cs!"/repo/tests/fixtures/exports-field" cs!"invalid-exports-field" cs!"Export field key can't mixed relative path and conditional object",
    .eq cs!"/repo/tests/fixtures/exports-field" cs!"exports-field" cs!"/repo/tests/fixtures/exports-field/node_modules/exports-field/x.js",
    .eq cs!"/repo/tests/fixtures/exports-field2" cs!"exports-field" cs!"/repo/tests/fixtures/exports-field2/node_modules/exports-field/index.js",
    .eq cs!"/repo/tests/fixtures/exports-field2" cs!"exports-field/dist/main.js" cs!"/repo/tests/fixtures/exports-field2/node_modules/exports-field/lib/lib2/main.js",
    .eq cs!"/repo/tests/fixtures/exports-field2" cs!"exports-field/dist/browser.js" cs!"/repo/tests/fixtures/exports-field2/node_modules/exports-field/lib/browser.js",
    .eq cs!"/repo/tests/fixtures/exports-field2" cs!"exports-field/dist/browser.js?foo" cs!"/repo/tests/fixtures/exports-field2/node_modules/exports-field/lib/browser.js?foo",
    .err cs!"/repo/tests/fixtures/exports-field2" cs!"exports-field/dist/main" cs!"Package path exports-field/dist/main is not exported",
    .err cs!"/repo/tests/fixtures/exports-field2" cs!"exports-field?foo" cs!"Package path exports-field is not exported",
    .err cs!"/repo/tests/fixtures/exports-field2" cs!"exports-field#foo" cs!"Package path exports-field is not exported",
    .eq cs!"/repo/tests/fixtures/exports-field2" cs!"exports-field/dist/browser.js#foo" cs!"/repo/tests/fixtures/exports-field2/node_modules/exports-field/lib/browser.js#foo"]
#guard check ({ Opts.default with extensions := [cs!".js"], browserField := true, conditionNames := [cs!"webpack"] } : Opts) [
    .eq cs!"/repo/tests/fixtures/exports-field" cs!"./node_modules/exports-field/lib/main.js" cs!"/repo/tests/fixtures/exports-field/node_modules/exports-field/lib/browser.js",
    .eq cs!"/repo/tests/fixtures/exports-field" cs!"./node_modules/exports-field/dist/main.js" cs!"/repo/tests/fixtures/exports-field/node_modules/exports-field/lib/browser.js"]
#guard check ({ Opts.default with extensions := [cs!".js"], browserField := true, conditionNames := [cs!"node"] } : Opts) [
    .eq cs!"/repo/tests/fixtures/exports-field" cs!"exports-field/dist/main.js" cs!"/repo/tests/fixtures/exports-field/node_modules/exports-field/lib/browser.js"]
#guard check ({ Opts.default with extensions := [cs!".js"], conditionNames := [cs!"webpack"] } : Opts) [
    .err cs!"/repo/tests/fixtures/exports-field-error" cs!"exports-field" cs!"Package path exports-field is not exported"]
/-! `imports_fields_test` -/
#guard check ({ Opts.default with extensions := [cs!".js"], conditionNames := [cs!"webpack"] } : Opts) [
    .eq cs!"/repo/tests/fixtures/imports-field" cs!"#c-redirect/index" cs!"/repo/tests/fixtures/imports-field/node_modules/c/index.js",
    .eq cs!"/repo/tests/fixtures/imports-field" cs!"c" cs!"/repo/tests/fixtures/imports-field/node_modules/c/index.js",
    .eq cs!"/repo/tests/fixtures/imports-field" cs!"#c" cs!"/repo/tests/fixtures/imports-field/node_modules/c/index.js",
    .eq cs!"/repo/tests/fixtures/imports-field" cs!"#imports-field" cs!"/repo/tests/fixtures/imports-field/b.js",
    .err cs!"/repo/tests/fixtures/imports-field" cs!"#b" cs!"Package path #b is not exported",
    .eq cs!"/repo/tests/fixtures/imports-field" cs!"#a/dist/main.js" cs!"/repo/tests/fixtures/imports-field/node_modules/a/lib/lib2/main.js",
    .eq cs!"/repo/tests/fixtures/imports-field" cs!"#ccc/index.js" cs!"/repo/tests/fixtures/imports-field/node_modules/c/index.js",
    .err cs!"/repo/tests/fixtures/imports-field" cs!"#a" cs!"Package path #a is not exported",
    .eq cs!"/repo/tests/fixtures/imports-field" cs!"#c" cs!"/repo/tests/fixtures/imports-field/node_modules/c/index.js",
    .eq cs!"/repo/tests/fixtures/imports-field/dir" cs!"#imports-field" cs!"/repo/tests/fixtures/imports-field/b.js"]
/-! `without_description_file_test` -/
#guard check ({ Opts.default with extensions := [cs!".js"], descriptionFile := none } : Opts) [
    .eq cs!"/repo/tests/fixtures" cs!"./a" cs!"/repo/tests/fixtures/a.js",
    .eq cs!"/repo/tests/fixtures/exports-field" cs!"exports-field/lib" cs!"/repo/tests/fixtures/exports-field/node_modules/exports-field/lib/index.js"]
/-! `prefer_relative_test` -/
#guard check ({ Opts.default with preferRelative := true } : Opts) [
    .eq cs!"/repo/tests/fixtures" cs!"main1.js" cs!"/repo/tests/fixtures/main1.js",
    .eq cs!"/repo/tests/fixtures" cs!"m1/a.js" cs!"/repo/tests/fixtures/node_modules/m1/a.js"]
/-! `main_fields_test` -/
#guard check ({ Opts.default with symlinks := true } : Opts) [
    .eq cs!"/repo/tests/fixtures" cs!"./main-field-self" cs!"/repo/tests/fixtures/main-field-self/index.js",
    .eq cs!"/repo/tests/fixtures" cs!"./main-field-self2" cs!"/repo/tests/fixtures/main-field-self2/index.js",
    .eq cs!"/repo/tests/fixtures" cs!"./main-field" cs!"/repo/tests/fixtures/main-field/src/index.js",
    .eq cs!"/repo/tests/fixtures" cs!"./main-field-inexist" cs!"/repo/tests/fixtures/main-field-inexist/index.js",
    .eq cs!"/repo/tests/fixtures" cs!"./main-filed-no-relative" cs!"/repo/tests/fixtures/main-filed-no-relative/c.js",
    .eq cs!"/repo/tests/fixtures/main-filed-no-relative" cs!"." cs!"/repo/tests/fixtures/main-filed-no-relative/c.js"]
#guard check ({ Opts.default with mainFields := [cs!"module"] } : Opts) [
    .eq cs!"/repo/tests/fixtures" cs!"./main-field-inexist" cs!"/repo/tests/fixtures/main-field-inexist/module.js",
    .eq cs!"/repo/tests/fixtures" cs!"./main-filed-no-relative" cs!"/repo/tests/fixtures/main-filed-no-relative/index.js",
    .eq cs!"/repo/tests/fixtures/main-filed-no-relative" cs!"." cs!"/repo/tests/fixtures/main-filed-no-relative/index.js"]
#guard check ({ Opts.default with mainFields := [cs!"main", cs!"module"] } : Opts) [
    .eq cs!"/repo/tests/fixtures" cs!"./main-field-inexist" cs!"/repo/tests/fixtures/main-field-inexist/module.js"]
#guard check ({ Opts.default with mainFields := [cs!"module", cs!"main"] } : Opts) [
    .eq cs!"/repo/tests/fixtures" cs!"./main-field-inexist" cs!"/repo/tests/fixtures/main-field-inexist/module.js"]
/-! `tsconfig_paths_test` -/
#guard check ({ Opts.default with extensions := [cs!".ts"], tsconfig := some cs!"/repo/tests/fixtures/tsconfig-paths/tsconfig.json" } : Opts) [
    .eq cs!"/repo/tests/fixtures/tsconfig-paths" cs!"test2/foo" cs!"/repo/tests/fixtures/tsconfig-paths/test2-success/foo.ts",
    .eq cs!"/repo/tests/fixtures/tsconfig-paths" cs!"test0" cs!"/repo/tests/fixtures/tsconfig-paths/test0-success.ts",
    .eq cs!"/repo/tests/fixtures/tsconfig-paths" cs!"test1/foo" cs!"/repo/tests/fixtures/tsconfig-paths/test1-success.ts",
    .eq cs!"/repo/tests/fixtures/tsconfig-paths" cs!"test2/foo" cs!"/repo/tests/fixtures/tsconfig-paths/test2-success/foo.ts",
    .err cs!"/repo/tests/fixtures/tsconfig-paths" cs!"te*t3/foo" cs!"Resolve 'te*t3/foo' failed in '/repo/tests/fixtures/tsconfig-paths'",
    .eq cs!"/repo/tests/fixtures/tsconfig-paths" cs!"test3/foo" cs!"/repo/tests/fixtures/tsconfig-paths/test3-success.ts",
    .eq cs!"/repo/tests/fixtures/tsconfig-paths" cs!"test4/foo" cs!"/repo/tests/fixtures/tsconfig-paths/test4-first/foo.ts",
    .eq cs!"/repo/tests/fixtures/tsconfig-paths" cs!"test5/foo" cs!"/repo/tests/fixtures/tsconfig-paths/test5-second/foo.ts",
    .eq cs!"/repo/tests/fixtures/tsconfig-paths" cs!"/virtual-in/test" cs!"/repo/tests/fixtures/tsconfig-paths/actual/test.ts",
    .eq cs!"/repo/tests/fixtures/tsconfig-paths" cs!"/virtual-in-star/test" cs!"/repo/tests/fixtures/tsconfig-paths/actual/test.ts",
    .eq cs!"/repo/tests/fixtures/tsconfig-paths" cs!"./test0-success" cs!"/repo/tests/fixtures/tsconfig-paths/test0-success.ts",
    .eq cs!"/repo/tests/fixtures/tsconfig-paths" cs!"./test1-success" cs!"/repo/tests/fixtures/tsconfig-paths/test1-success.ts",
    .eq cs!"/repo/tests/fixtures/tsconfig-paths" cs!"./test2-success/foo" cs!"/repo/tests/fixtures/tsconfig-paths/test2-success/foo.ts",
    .eq cs!"/repo/tests/fixtures/tsconfig-paths" cs!"./test3-success" cs!"/repo/tests/fixtures/tsconfig-paths/test3-success.ts",
    .eq cs!"/repo/tests/fixtures/tsconfig-paths" cs!"./test4-first/foo" cs!"/repo/tests/fixtures/tsconfig-paths/test4-first/foo.ts",
    .eq cs!"/repo/tests/fixtures/tsconfig-paths" cs!"./test5-second/foo" cs!"/repo/tests/fixtures/tsconfig-paths/test5-second/foo.ts",
    .eq cs!"/repo/tests/fixtures/tsconfig-paths" cs!"./actual/test" cs!"/repo/tests/fixtures/tsconfig-paths/actual/test.ts"]
/-! `tsconfig_paths_nested` -/
#guard check ({ Opts.default with extensions := [cs!".ts"], tsconfig := some cs!"/repo/tests/fixtures/tsconfig-paths-nested/tsconfig.json" } : Opts) [
    .eq cs!"/repo/tests/fixtures/tsconfig-paths-nested" cs!"test0" cs!"/repo/tests/fixtures/tsconfig-paths-nested/nested/test0-success.ts",
    .eq cs!"/repo/tests/fixtures/tsconfig-paths-nested" cs!"test1/foo" cs!"/repo/tests/fixtures/tsconfig-paths-nested/nested/test1-success.ts",
    .eq cs!"/repo/tests/fixtures/tsconfig-paths-nested" cs!"test2/foo" cs!"/repo/tests/fixtures/tsconfig-paths-nested/nested/test2-success/foo.ts",
    .err cs!"/repo/tests/fixtures/tsconfig-paths-nested" cs!"te*t3/foo" cs!"Resolve 'te*t3/foo' failed in '/repo/tests/fixtures/tsconfig-paths-nested'",
    .eq cs!"/repo/tests/fixtures/tsconfig-paths-nested" cs!"test3/foo" cs!"/repo/tests/fixtures/tsconfig-paths-nested/nested/test3-success.ts",
    .eq cs!"/repo/tests/fixtures/tsconfig-paths-nested" cs!"test4/foo" cs!"/repo/tests/fixtures/tsconfig-paths-nested/nested/test4-first/foo.ts",
    .eq cs!"/repo/tests/fixtures/tsconfig-paths-nested" cs!"test5/foo" cs!"/repo/tests/fixtures/tsconfig-paths-nested/nested/test5-second/foo.ts",
    .eq cs!"/repo/tests/fixtures/tsconfig-paths-nested" cs!"/virtual-in/test" cs!"/repo/tests/fixtures/tsconfig-paths-nested/nested/actual/test.ts",
    .eq cs!"/repo/tests/fixtures/tsconfig-paths-nested" cs!"/virtual-in-star/test" cs!"/repo/tests/fixtures/tsconfig-paths-nested/nested/actual/test.ts"]
/-! `tsconfig_paths_without_base_url_test` -/
#guard check ({ Opts.default with extensions := [cs!".ts"], tsconfig := some cs!"/repo/tests/fixtures/tsconfig-paths-without-baseURL/tsconfig.json" } : Opts) [
    .err cs!"/repo/tests/fixtures/tsconfig-paths-without-baseURL" cs!"should-not-be-imported" cs!"Resolve 'should-not-be-imported' failed in '/repo/tests/fixtures/tsconfig-paths-without-baseURL'"]
/-! `tsconfig_paths_overridden_base_url` -/
#guard check ({ Opts.default with extensions := [cs!".ts"], tsconfig := some cs!"/repo/tests/fixtures/tsconfig-paths-override-baseURL/tsconfig.json" } : Opts) [
    .eq cs!"/repo/tests/fixtures/tsconfig-paths-override-baseURL" cs!"#/test" cs!"/repo/tests/fixtures/tsconfig-paths-override-baseURL/src/test.ts"]
/-! `tsconfig_paths_missing_base_url` -/
#guard check ({ Opts.default with extensions := [cs!".ts"], tsconfig := some cs!"/repo/tests/fixtures/tsconfig-paths-missing-baseURL/tsconfig.json" } : Opts) [
    .err cs!"/repo/tests/fixtures/tsconfig-paths-missing-baseURL" cs!"#/test" cs!"Resolve '#/test' failed in '/repo/tests/fixtures/tsconfig-paths-missing-baseURL'"]
/-! `tsconfig_paths_extends_from_node_modules` -/
#guard check ({ Opts.default with extensions := [cs!".ts"], tsconfig := some cs!"/repo/tests/fixtures/tsconfig-paths-extends-from-module/tsconfig.json" } : Opts) [
    .eq cs!"/repo/tests/fixtures/tsconfig-paths-extends-from-module" cs!"foo" cs!"/repo/tests/fixtures/tsconfig-paths-extends-from-module/src/test.ts"]
#guard check ({ Opts.default with extensions := [cs!".ts"], tsconfig := some cs!"/repo/tests/fixtures/tsconfig-paths-extends-from-module/tsconfig.scope.json" } : Opts) [
    .eq cs!"/repo/tests/fixtures/tsconfig-paths-extends-from-module" cs!"foo" cs!"/repo/tests/fixtures/tsconfig-paths-extends-from-module/src/test.ts"]
/-! `load_side_effects_test` -/
def seCheck (o : Opts) (p : Str) (f : Except Str (Option (Str × Option SideEffects)) → Bool) : Bool :=
  match (loadSideEffects (envOf o) p).run (World.init fun _ => 0) with
  | (.done (.ok r), _) => f (.ok r)
  | (.done (.error e), _) => f (.error (e.render printJson))
  | _ => false

#guard seCheck Opts.default
    cs!"/repo/tests/fixtures/exports-field/node_modules/@scope/import-require/a.js"
    fun
    | .ok (some (p, some (.array _))) =>
      p == cs!"/repo/tests/fixtures/exports-field/node_modules/@scope/import-require/package.json"
    | _ => false
#guard seCheck Opts.default
    cs!"/repo/tests/fixtures/exports-field/node_modules/exports-field/a.js"
    fun
    | .ok (some (p, some (.bool false))) =>
      p == cs!"/repo/tests/fixtures/exports-field/node_modules/exports-field/package.json"
    | _ => false
#guard seCheck Opts.default cs!"/repo/tests/fixtures/incorrect-package/sideeffects-map"
    fun
    | .error m => m == cs!"sideEffects in /repo/tests/fixtures/incorrect-package/sideeffects-map/package.json had unexpected value {}"
    | _ => false
#guard seCheck Opts.default cs!"/repo/tests/fixtures/incorrect-package/sideeffects-other-in-array"
    fun
    | .error m => m == cs!"sideEffects in /repo/tests/fixtures/incorrect-package/sideeffects-other-in-array/package.json had unexpected value 1"
    | _ => false
#guard seCheck Opts.default cs!"/repo/tests/fixtures" fun
    | .ok none => true
    | _ => false

/-! `shared_cache_test`: the caches of the three resolvers are shared, their file caches and
debug maps are not -/
def fresh (w : World) : World := { w with file := fun _ => none, dbg := fun _ => false }
def sharedTest : Bool :=
  let d := cs!"/repo/tests/fixtures/browser-module"
  let w := World.init fun _ => 0
  let (a, w) := runStep (envOf { Opts.default with browserField := true }) w
    (.ignored d cs!"./lib/ignore.js")
  let (b, w) := runStep (envOf Opts.default) (fresh w)
    (.eq d cs!"./lib/ignore.js" cs!"/repo/tests/fixtures/browser-module/lib/ignore.js")
  let (c, _) := runStep (envOf { Opts.default with mainFields := [cs!"module"] }) (fresh w)
    (.eq cs!"/repo/tests/fixtures/main-field-inexist" cs!"."
      cs!"/repo/tests/fixtures/main-field-inexist/module.js")
  a && b && c
#guard sharedTest

/-! `cache_fs` -/
def cacheFs (main : Str) (m : Nat) : Fs :=
  entFs (.dir [(cs!"d", .dir [(cs!"index.js", txt), (cs!"module.js", txt),
    (cs!"package.json", .file ⟨some (.obj [(cs!"main", .str main)]), .error []⟩ m)])]) []
def cacheFsTest : Bool :=
  let env (main : Str) (m : Nat) : Env := { envOf Opts.default with fs := cacheFs main m }
  let w := World.init fun _ => 0
  let (a, w) := runStep (env cs!"index.js" 0) w (.eq cs!"/d" cs!"." cs!"/d/index.js")
  let (b, w) := runStep (env cs!"module.js" 3000000000) w (.eq cs!"/d" cs!"." cs!"/d/module.js")
  let (c, _) := runStep (env cs!"index.js" 6000000000) w (.eq cs!"/d" cs!"." cs!"/d/index.js")
  a && b && c
#guard cacheFsTest


end Verif.Test
