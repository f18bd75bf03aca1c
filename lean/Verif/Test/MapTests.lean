import Verif.Model.Types
/-!
# Tests (not proofs): ports of `exports_field_map_test` and `imports_field_map_test`
(src/map.rs:549-1870). They check the reading of the code, nothing more.
-/

set_option maxRecDepth 10000

namespace Verif.Test

/-- The macro `process_exports_fields!` / `process_imports_fields!` of the tests. -/
def process (k : FieldKind) (j : Json) (req : Str) (names : List Str) :
    Option (Except Err (List Str)) :=
  match buildTree k j with
  | none => none
  | some (.error e) => some (.error e)
  | some (.ok root) => fieldProcess k root req names

def okEq (r : Option (Except Err (List Str))) (l : List Str) : Bool :=
  match r with
  | some (.ok l') => l' == l
  | _ => false

def errEq (r : Option (Except Err (List Str))) (m : Str) : Bool :=
  match r with
  | some (.error e) => e.render (fun _ => []) == m
  | _ => false

#guard okEq (process .exports (.obj [(cs!"./utils/", .obj [(cs!"webpack", .str cs!"./wpk/"), (cs!"browser", .arr [.str cs!"lodash/", .str cs!"./utils/"]), (cs!"node", .arr [.str cs!"./utils/"])])]) cs!"./utils/index.mjs" [cs!"browser", cs!"webpack"]) [cs!"./wpk/index.mjs"]
#guard okEq (process .exports (.str cs!"./main.js") cs!"." []) [cs!"./main.js"]
#guard okEq (process .exports (.str cs!"./main.js") cs!"./main.js" []) []
#guard okEq (process .exports (.str cs!"./main.js") cs!"./lib.js" []) []
#guard okEq (process .exports (.arr [.str cs!"./a.js", .str cs!"./b.js"]) cs!"." []) [cs!"./a.js", cs!"./b.js"]
#guard okEq (process .exports (.arr [.str cs!"./a.js", .str cs!"./b.js"]) cs!"./a.js" []) []
#guard okEq (process .exports (.arr [.str cs!"./a.js", .str cs!"./b.js"]) cs!"./lib.js" []) []
#guard okEq (process .exports (.obj [(cs!"./a/", .str cs!"./A/"), (cs!"./a/b/c", .str cs!"./c.js")]) cs!"./a/b/d.js" []) [cs!"./A/b/d.js"]
#guard okEq (process .exports (.obj [(cs!"./a/", .str cs!"./A/"), (cs!"./a/b", .str cs!"./b.js")]) cs!"./a/c.js" []) [cs!"./A/c.js"]
#guard okEq (process .exports (.obj [(cs!"./a/", .str cs!"./A/"), (cs!"./a/b/c/d", .str cs!"./c.js")]) cs!"./a/b/d/c.js" []) [cs!"./A/b/d/c.js"]
#guard okEq (process .exports (.obj [(cs!"./a/*", .str cs!"./A/*"), (cs!"./a/b/c", .str cs!"./c.js")]) cs!"./a/b/d.js" []) [cs!"./A/b/d.js"]
#guard okEq (process .exports (.obj [(cs!"./a/*", .str cs!"./A/*"), (cs!"./a/b", .str cs!"./b.js")]) cs!"./a/c.js" []) [cs!"./A/c.js"]
#guard okEq (process .exports (.obj [(cs!"./a/*", .str cs!"./A/*"), (cs!"./a/b/c/d", .str cs!"./b.js")]) cs!"./a/b/d/c.js" []) [cs!"./A/b/d/c.js"]
#guard okEq (process .exports (.obj [(cs!"./ab*", .str cs!"./ab/*"), (cs!"./abc*", .str cs!"./abc/*"), (cs!"./a*", .str cs!"./a/*")]) cs!"./abcd" [cs!"browser"]) [cs!"./abc/d"]
#guard okEq (process .exports (.obj [(cs!"./ab*", .str cs!"./ab/*"), (cs!"./abc*", .str cs!"./abc/*"), (cs!"./a*", .str cs!"./a/*")]) cs!"./abcd" []) [cs!"./abc/d"]
#guard okEq (process .exports (.obj [(cs!"./ab*", .str cs!"./ab/*"), (cs!"./abc*", .str cs!"./abc/*"), (cs!"./a*", .str cs!"./a/*")]) cs!"./abcd/e" [cs!"browser"]) [cs!"./abc/d/e"]
#guard okEq (process .exports (.obj [(cs!"./x/ab*", .str cs!"./ab/*"), (cs!"./x/abc*", .str cs!"./abc/*"), (cs!"./x/a*", .str cs!"./a/*")]) cs!"./x/abcd" [cs!"browser"]) [cs!"./abc/d"]
#guard okEq (process .exports (.obj [(cs!"./x/ab*", .str cs!"./ab/*"), (cs!"./x/abc*", .str cs!"./abc/*"), (cs!"./x/a*", .str cs!"./a/*")]) cs!"./x/abcd/e" [cs!"browser"]) [cs!"./abc/d/e"]
#guard okEq (process .exports (.obj [(cs!"browser", .obj [(cs!"default", .str cs!"./index.js")])]) cs!"./lib.js" [cs!"browser"]) []
#guard okEq (process .exports (.obj [(cs!"browser", .obj [(cs!"default", .str cs!"./index.js")])]) cs!"." [cs!"browser"]) [cs!"./index.js"]
#guard okEq (process .exports (.obj [(cs!"./foo/", .obj [(cs!"import", .arr [.str cs!"./dist/", .str cs!"./src/"]), (cs!"webpack", .str cs!"./wp/")]), (cs!".", .str cs!"./main.js")]) cs!"./foo/test/file.js" [cs!"import", cs!"webpack"]) [cs!"./dist/test/file.js", cs!"./src/test/file.js"]
#guard okEq (process .exports (.obj [(cs!"./foo/*", .obj [(cs!"import", .arr [.str cs!"./dist/*", .str cs!"./src/*"]), (cs!"webpack", .str cs!"./wp/*")]), (cs!".", .str cs!"./main.js")]) cs!"./foo/test/file.js" [cs!"import", cs!"webpack"]) [cs!"./dist/test/file.js", cs!"./src/test/file.js"]
#guard okEq (process .exports (.obj [(cs!"./timezones/", .str cs!"./data/timezones/")]) cs!"./timezones/pdt.mjs" []) [cs!"./data/timezones/pdt.mjs"]
#guard okEq (process .exports (.obj [(cs!"./", .str cs!"./data/timezones/")]) cs!"./timezones/pdt.mjs" []) [cs!"./data/timezones/timezones/pdt.mjs"]
#guard okEq (process .exports (.obj [(cs!"./*", .str cs!"./data/timezones/*.mjs")]) cs!"./timezones/pdt" []) [cs!"./data/timezones/timezones/pdt.mjs"]
#guard okEq (process .exports (.obj [(cs!"./lib/", .obj [(cs!"browser", .arr [.str cs!"./browser/"])]), (cs!"./dist/index.js", .obj [(cs!"node", .str cs!"./index.js")])]) cs!"./dist/index.js" [cs!"browser"]) []
#guard okEq (process .exports (.obj [(cs!"./lib/*", .obj [(cs!"browser", .arr [.str cs!"./browser/*"])]), (cs!"./dist/index.js", .obj [(cs!"node", .str cs!"./index.js")])]) cs!"./dist/index.js" [cs!"browser"]) []
#guard okEq (process .exports (.obj [(cs!"./lib/", .obj [(cs!"browser", .arr [.str cs!"./browser/"])]), (cs!"./dist/index.js", .obj [(cs!"node", .str cs!"./index.js"), (cs!"default", .str cs!"./browser/index.js")])]) cs!"./dist/index.js" [cs!"browser"]) [cs!"./browser/index.js"]
#guard okEq (process .exports (.obj [(cs!"./lib/*", .obj [(cs!"browser", .arr [.str cs!"./browser/*"])]), (cs!"./dist/index.js", .obj [(cs!"node", .str cs!"./index.js"), (cs!"default", .str cs!"./browser/index.js")])]) cs!"./dist/index.js" [cs!"browser"]) [cs!"./browser/index.js"]
#guard okEq (process .exports (.obj [(cs!"./dist/a", .str cs!"./dist/index.js")]) cs!"./dist/aaa" []) []
#guard okEq (process .exports (.obj [(cs!"./dist/a/a/", .str cs!"./dist/index.js")]) cs!"./dist/a" []) []
#guard okEq (process .exports (.obj [(cs!"./dist/a/a/*", .str cs!"./dist/index.js")]) cs!"./dist/a" []) []
#guard okEq (process .exports (.obj [(cs!".", .str cs!"./index.js")]) cs!"./timezones/pdt.mjs" []) []
#guard okEq (process .exports (.obj [(cs!"./index.js", .str cs!"./main.js")]) cs!"./index.js" []) [cs!"./main.js"]
#guard okEq (process .exports (.obj [(cs!"./#foo", .str cs!"./ok.js"), (cs!"./module", .str cs!"./ok.js"), (cs!"./🎉", .str cs!"./ok.js"), (cs!"./%F0%9F%8E%89", .str cs!"./other.js"), (cs!"./bar#foo", .str cs!"./ok.js"), (cs!"./#zapp/", .str cs!"./"), (cs!"./#zipp*", .str cs!"./zzz*")]) cs!"./#foo" []) [cs!"./ok.js"]
#guard okEq (process .exports (.obj [(cs!"./#foo", .str cs!"./ok.js"), (cs!"./module", .str cs!"./ok.js"), (cs!"./🎉", .str cs!"./ok.js"), (cs!"./%F0%9F%8E%89", .str cs!"./other.js"), (cs!"./bar#foo", .str cs!"./ok.js"), (cs!"./#zapp/", .str cs!"./"), (cs!"./#zipp*", .str cs!"./zzz*")]) cs!"./bar#foo" []) [cs!"./ok.js"]
#guard okEq (process .exports (.obj [(cs!"./#foo", .str cs!"./ok.js"), (cs!"./module", .str cs!"./ok.js"), (cs!"./🎉", .str cs!"./ok.js"), (cs!"./%F0%9F%8E%89", .str cs!"./other.js"), (cs!"./bar#foo", .str cs!"./ok.js"), (cs!"./#zapp/", .str cs!"./"), (cs!"./#zipp*", .str cs!"./zzz*")]) cs!"./#zapp/ok.js#abc" []) [cs!"./ok.js#abc"]
#guard okEq (process .exports (.obj [(cs!"./#foo", .str cs!"./ok.js"), (cs!"./module", .str cs!"./ok.js"), (cs!"./🎉", .str cs!"./ok.js"), (cs!"./%F0%9F%8E%89", .str cs!"./other.js"), (cs!"./bar#foo", .str cs!"./ok.js"), (cs!"./#zapp/", .str cs!"./"), (cs!"./#zipp*", .str cs!"./zzz*")]) cs!"./#zapp/ok.js#abc" []) [cs!"./ok.js#abc"]
#guard okEq (process .exports (.obj [(cs!"./#foo", .str cs!"./ok.js"), (cs!"./module", .str cs!"./ok.js"), (cs!"./🎉", .str cs!"./ok.js"), (cs!"./%F0%9F%8E%89", .str cs!"./other.js"), (cs!"./bar#foo", .str cs!"./ok.js"), (cs!"./#zapp/", .str cs!"./"), (cs!"./#zipp*", .str cs!"./zzz*")]) cs!"./#zapp/ok.js?abc" []) [cs!"./ok.js?abc"]
#guard okEq (process .exports (.obj [(cs!"./#foo", .str cs!"./ok.js"), (cs!"./module", .str cs!"./ok.js"), (cs!"./🎉", .str cs!"./ok.js"), (cs!"./%F0%9F%8E%89", .str cs!"./other.js"), (cs!"./bar#foo", .str cs!"./ok.js"), (cs!"./#zapp/", .str cs!"./"), (cs!"./#zipp*", .str cs!"./zzz*")]) cs!"./#zapp/🎉.js" []) [cs!"./🎉.js"]
#guard okEq (process .exports (.obj [(cs!"./#foo", .str cs!"./ok.js"), (cs!"./module", .str cs!"./ok.js"), (cs!"./🎉", .str cs!"./ok.js"), (cs!"./%F0%9F%8E%89", .str cs!"./other.js"), (cs!"./bar#foo", .str cs!"./ok.js"), (cs!"./#zapp/", .str cs!"./"), (cs!"./#zipp*", .str cs!"./zzz*")]) cs!"./#zapp/%F0%9F%8E%89.js" []) [cs!"./%F0%9F%8E%89.js"]
#guard okEq (process .exports (.obj [(cs!"./#foo", .str cs!"./ok.js"), (cs!"./module", .str cs!"./ok.js"), (cs!"./🎉", .str cs!"./ok.js"), (cs!"./%F0%9F%8E%89", .str cs!"./other.js"), (cs!"./bar#foo", .str cs!"./ok.js"), (cs!"./#zapp/", .str cs!"./"), (cs!"./#zipp*", .str cs!"./zzz*")]) cs!"./🎉" []) [cs!"./ok.js"]
#guard okEq (process .exports (.obj [(cs!"./#foo", .str cs!"./ok.js"), (cs!"./module", .str cs!"./ok.js"), (cs!"./🎉", .str cs!"./ok.js"), (cs!"./%F0%9F%8E%89", .str cs!"./other.js"), (cs!"./bar#foo", .str cs!"./ok.js"), (cs!"./#zapp/", .str cs!"./"), (cs!"./#zipp*", .str cs!"./zzz*")]) cs!"./%F0%9F%8E%89" []) [cs!"./other.js"]
#guard okEq (process .exports (.obj [(cs!"./#foo", .str cs!"./ok.js"), (cs!"./module", .str cs!"./ok.js"), (cs!"./🎉", .str cs!"./ok.js"), (cs!"./%F0%9F%8E%89", .str cs!"./other.js"), (cs!"./bar#foo", .str cs!"./ok.js"), (cs!"./#zapp/", .str cs!"./"), (cs!"./#zipp*", .str cs!"./zzz*")]) cs!"./module" []) [cs!"./ok.js"]
#guard okEq (process .exports (.obj [(cs!"./#foo", .str cs!"./ok.js"), (cs!"./module", .str cs!"./ok.js"), (cs!"./🎉", .str cs!"./ok.js"), (cs!"./%F0%9F%8E%89", .str cs!"./other.js"), (cs!"./bar#foo", .str cs!"./ok.js"), (cs!"./#zapp/", .str cs!"./"), (cs!"./#zipp*", .str cs!"./zzz*")]) cs!"./module#foo" []) []
#guard okEq (process .exports (.obj [(cs!"./#foo", .str cs!"./ok.js"), (cs!"./module", .str cs!"./ok.js"), (cs!"./🎉", .str cs!"./ok.js"), (cs!"./%F0%9F%8E%89", .str cs!"./other.js"), (cs!"./bar#foo", .str cs!"./ok.js"), (cs!"./#zapp/", .str cs!"./"), (cs!"./#zipp*", .str cs!"./zzz*")]) cs!"./module?foo" []) []
#guard okEq (process .exports (.obj [(cs!"./#foo", .str cs!"./ok.js"), (cs!"./module", .str cs!"./ok.js"), (cs!"./🎉", .str cs!"./ok.js"), (cs!"./%F0%9F%8E%89", .str cs!"./other.js"), (cs!"./bar#foo", .str cs!"./ok.js"), (cs!"./#zapp/", .str cs!"./"), (cs!"./#zipp*", .str cs!"./z*z*z*")]) cs!"./#zippi" []) [cs!"./zizizi"]
#guard okEq (process .exports (.obj [(cs!"./a?b?c/", .str cs!"./")]) cs!"./a?b?c/d?e?f" []) [cs!"./d?e?f"]
#guard okEq (process .exports (.obj [(cs!".", .str cs!"./dist/index.js")]) cs!"." []) [cs!"./dist/index.js"]
#guard okEq (process .exports (.obj [(cs!"./", .str cs!"./"), (cs!"./*", .str cs!"./*"), (cs!"./dist/index.js", .str cs!"./dist/index.js")]) cs!"." []) []
#guard okEq (process .exports (.obj [(cs!"./dist/", .str cs!"./dist/"), (cs!"./dist/*", .str cs!"./dist/*"), (cs!"./dist*", .str cs!"./dist*"), (cs!"./dist/index.js", .str cs!"./dist/a.js")]) cs!"./dist/index.js" []) [cs!"./dist/a.js"]
#guard okEq (process .exports (.obj [(cs!"./", .obj [(cs!"browser", .arr [.str cs!"./browser/"])]), (cs!"./*", .obj [(cs!"browser", .arr [.str cs!"./browser/*"])]), (cs!"./dist/index.js", .obj [(cs!"browser", .str cs!"./index.js")])]) cs!"./dist/index.js" [cs!"browser"]) [cs!"./index.js"]
#guard okEq (process .exports (.obj [(cs!"./a?b?c/", .str cs!"./")]) cs!"./a?b?c/d?e?f" []) [cs!"./d?e?f"]
#guard okEq (process .exports (.obj [(cs!"./", .obj [(cs!"browser", .arr [.str cs!"./browser/"])]), (cs!"./*", .obj [(cs!"browser", .arr [.str cs!"./browser/*"])]), (cs!"./dist/index.js", .obj [(cs!"node", .str cs!"./node.js")])]) cs!"./dist/index.js" [cs!"browser"]) []
#guard okEq (process .exports (.obj [(cs!".", .obj [(cs!"browser", .str cs!"./index.js"), (cs!"node", .str cs!"./src/node/index.js"), (cs!"default", .str cs!"./src/index.js")])]) cs!"." [cs!"browser"]) [cs!"./index.js"]
#guard okEq (process .exports (.obj [(cs!".", .obj [(cs!"browser", .str cs!"./index.js"), (cs!"node", .str cs!"./src/node/index.js"), (cs!"default", .str cs!"./src/index.js")])]) cs!"." []) [cs!"./src/index.js"]
#guard okEq (process .exports (.obj [(cs!".", .str cs!"./index")]) cs!"." []) [cs!"./index"]
#guard okEq (process .exports (.obj [(cs!"./index", .str cs!"./index.js")]) cs!"./index" []) [cs!"./index.js"]
#guard okEq (process .exports (.obj [(cs!".", .arr [.obj [(cs!"browser", .str cs!"./browser.js")], .obj [(cs!"require", .str cs!"./require.js")], .obj [(cs!"import", .str cs!"./import.mjs")]])]) cs!"." []) []
#guard okEq (process .exports (.obj [(cs!".", .arr [.obj [(cs!"browser", .str cs!"./browser.js")], .obj [(cs!"require", .str cs!"./require.js")], .obj [(cs!"import", .str cs!"./import.mjs")]])]) cs!"." [cs!"import"]) [cs!"./import.mjs"]
#guard okEq (process .exports (.obj [(cs!".", .arr [.obj [(cs!"browser", .str cs!"./browser.js")], .obj [(cs!"require", .str cs!"./require.js")], .obj [(cs!"import", .str cs!"./import.mjs")]])]) cs!"." [cs!"import", cs!"require"]) [cs!"./require.js", cs!"./import.mjs"]
#guard okEq (process .exports (.obj [(cs!".", .arr [.obj [(cs!"browser", .str cs!"./browser.js")], .obj [(cs!"require", .str cs!"./require.js")], .obj [(cs!"import", .arr [.str cs!"./import.mjs", .str cs!"./import.js"])]])]) cs!"." [cs!"import", cs!"require"]) [cs!"./require.js", cs!"./import.mjs", cs!"./import.js"]
#guard okEq (process .exports (.obj [(cs!"./timezones", .str cs!"./data/timezones")]) cs!"./timezones/pdt.mjs" []) []
#guard okEq (process .exports (.obj [(cs!"./timezones/pdt/", .str cs!"./data/timezones/pdt/")]) cs!"./timezones/pdt/index.mjs" []) [cs!"./data/timezones/pdt/index.mjs"]
#guard okEq (process .exports (.obj [(cs!"./timezones/pdt/*", .str cs!"./data/timezones/pdt/*")]) cs!"./timezones/pdt/index.mjs" []) [cs!"./data/timezones/pdt/index.mjs"]
#guard okEq (process .exports (.obj [(cs!"./", .str cs!"./timezones/")]) cs!"./pdt.mjs" []) [cs!"./timezones/pdt.mjs"]
#guard okEq (process .exports (.obj [(cs!"./*", .str cs!"./timezones/*")]) cs!"./pdt.mjs" []) [cs!"./timezones/pdt.mjs"]
#guard okEq (process .exports (.obj [(cs!"./", .str cs!"./")]) cs!"./timezones/pdt.mjs" []) [cs!"./timezones/pdt.mjs"]
#guard okEq (process .exports (.obj [(cs!"./*", .str cs!"./*")]) cs!"./timezones/pdt.mjs" []) [cs!"./timezones/pdt.mjs"]
#guard okEq (process .exports (.obj [(cs!".", .str cs!"./")]) cs!"./timezones/pdt.mjs" []) []
#guard okEq (process .exports (.obj [(cs!".", .str cs!"./*")]) cs!"./timezones/pdt.mjs" []) []
#guard okEq (process .exports (.obj [(cs!"./", .str cs!"./"), (cs!"./dist/", .str cs!"./lib/")]) cs!"./dist/index.mjs" []) [cs!"./lib/index.mjs"]
#guard okEq (process .exports (.obj [(cs!"./*", .str cs!"./*"), (cs!"./dist/*", .str cs!"./lib/*")]) cs!"./dist/index.mjs" []) [cs!"./lib/index.mjs"]
#guard okEq (process .exports (.obj [(cs!"./dist/utils/", .str cs!"./dist/utils/"), (cs!"./dist/", .str cs!"./lib/")]) cs!"./dist/utils/index.js" []) [cs!"./dist/utils/index.js"]
#guard okEq (process .exports (.obj [(cs!"./dist/utils/*", .str cs!"./dist/utils/*"), (cs!"./dist/*", .str cs!"./lib/*")]) cs!"./dist/utils/index.js" []) [cs!"./dist/utils/index.js"]
#guard okEq (process .exports (.obj [(cs!"./dist/utils/index.js", .str cs!"./dist/utils/index.js"), (cs!"./dist/utils/", .str cs!"./dist/utils/index.mjs"), (cs!"./dist/", .str cs!"./lib/")]) cs!"./dist/utils/index.js" []) [cs!"./dist/utils/index.js"]
#guard okEq (process .exports (.obj [(cs!"./dist/utils/index.js", .str cs!"./dist/utils/index.js"), (cs!"./dist/utils/*", .str cs!"./dist/utils/index.mjs"), (cs!"./dist/*", .str cs!"./lib/*")]) cs!"./dist/utils/index.js" []) [cs!"./dist/utils/index.js"]
#guard okEq (process .exports (.obj [(cs!"./", .obj [(cs!"browser", .str cs!"./browser/")]), (cs!"./dist/", .str cs!"./lib/")]) cs!"./dist/index.mjs" [cs!"browser"]) [cs!"./lib/index.mjs"]
#guard okEq (process .exports (.obj [(cs!"./*", .obj [(cs!"browser", .str cs!"./browser/*")]), (cs!"./dist/*", .str cs!"./lib/*")]) cs!"./dist/index.mjs" [cs!"browser"]) [cs!"./lib/index.mjs"]
#guard okEq (process .exports (.obj [(cs!"./utils/", .obj [(cs!"browser", .arr [.str cs!"lodash/", .str cs!"./utils/"]), (cs!"node", .arr [.str cs!"./utils-node/"])])]) cs!"./utils/index.js" [cs!"browser"]) [cs!"lodash/index.js", cs!"./utils/index.js"]
#guard okEq (process .exports (.obj [(cs!"./utils/*", .obj [(cs!"browser", .arr [.str cs!"lodash/*", .str cs!"./utils/*"]), (cs!"node", .arr [.str cs!"./utils-node/*"])])]) cs!"./utils/index.js" [cs!"browser"]) [cs!"lodash/index.js", cs!"./utils/index.js"]
#guard okEq (process .exports (.obj [(cs!"./utils/", .obj [(cs!"webpack", .str cs!"./wpk/"), (cs!"browser", .arr [.str cs!"lodash/", .str cs!"./utils/"]), (cs!"node", .arr [.str cs!"./node/"])])]) cs!"./utils/index.mjs" []) []
#guard okEq (process .exports (.obj [(cs!"./utils/*", .obj [(cs!"webpack", .str cs!"./wpk/*"), (cs!"browser", .arr [.str cs!"lodash/*", .str cs!"./utils/*"]), (cs!"node", .arr [.str cs!"./node/*"])])]) cs!"./utils/index.mjs" []) []
#guard okEq (process .exports (.obj [(cs!"./utils/", .obj [(cs!"webpack", .str cs!"./wpk/"), (cs!"browser", .arr [.str cs!"lodash/", .str cs!"./utils/"]), (cs!"node", .arr [.str cs!"./utils/"])])]) cs!"./utils/index.mjs" [cs!"browser", cs!"webpack"]) [cs!"./wpk/index.mjs"]
#guard okEq (process .exports (.obj [(cs!"./utils/*", .obj [(cs!"webpack", .str cs!"./wpk/*"), (cs!"browser", .arr [.str cs!"lodash/*", .str cs!"./utils/*"]), (cs!"node", .arr [.str cs!"./utils/*"])])]) cs!"./utils/index.mjs" [cs!"browser", cs!"webpack"]) [cs!"./wpk/index.mjs"]
#guard okEq (process .exports (.obj [(cs!"./utils/index", .str cs!"./a/index.js")]) cs!"./utils/index.mjs" []) []
#guard okEq (process .exports (.obj [(cs!"./utils/index.mjs", .str cs!"./a/index.js")]) cs!"./utils/index" []) []
#guard okEq (process .exports (.obj [(cs!"./utils/index", .obj [(cs!"browser", .str cs!"./a/index.js"), (cs!"default", .str cs!"./b/index.js")])]) cs!"./utils/index.mjs" [cs!"browser"]) []
#guard okEq (process .exports (.obj [(cs!"./utils/index.mjs", .obj [(cs!"browser", .str cs!"./a/index.js"), (cs!"default", .str cs!"./b/index.js")])]) cs!"./utils/index" [cs!"browser"]) []
#guard okEq (process .exports (.obj [(cs!"./../../utils/", .str cs!"./dist/")]) cs!"./../../utils/index" []) [cs!"./dist/index"]
#guard okEq (process .exports (.obj [(cs!"./../../utils/*", .str cs!"./dist/*")]) cs!"./../../utils/index" []) [cs!"./dist/index"]
#guard okEq (process .exports (.obj [(cs!"./utils/", .str cs!"./../src/")]) cs!"./utils/index" []) [cs!"./../src/index"]
#guard okEq (process .exports (.obj [(cs!"./utils/*", .str cs!"./../src/*")]) cs!"./utils/index" []) [cs!"./../src/index"]
#guard okEq (process .exports (.obj [(cs!"./utils/index", .str cs!"./src/../index.js")]) cs!"./utils/index" []) [cs!"./src/../index.js"]
#guard okEq (process .exports (.obj [(cs!"./utils/../utils/index", .str cs!"./src/../index.js")]) cs!"./utils/index" []) []
#guard okEq (process .exports (.obj [(cs!"./utils/", .obj [(cs!"browser", .str cs!"./utils/../")])]) cs!"./utils/index" [cs!"browser"]) [cs!"./utils/../index"]
#guard okEq (process .exports (.obj [(cs!"./", .str cs!"./src/../../"), (cs!"./dist/", .str cs!"./dist/")]) cs!"./dist/index" [cs!"browser"]) [cs!"./dist/index"]
#guard okEq (process .exports (.obj [(cs!"./*", .str cs!"./src/../../*"), (cs!"./dist/*", .str cs!"./dist/*")]) cs!"./dist/index" [cs!"browser"]) [cs!"./dist/index"]
#guard okEq (process .exports (.obj [(cs!"./utils/", .str cs!"./dist/")]) cs!"./utils/timezone/../../index" []) [cs!"./dist/timezone/../../index"]
#guard okEq (process .exports (.obj [(cs!"./utils/*", .str cs!"./dist/*")]) cs!"./utils/timezone/../../index" []) [cs!"./dist/timezone/../../index"]
#guard okEq (process .exports (.obj [(cs!"./utils/", .str cs!"./dist/")]) cs!"./utils/timezone/../index" []) [cs!"./dist/timezone/../index"]
#guard okEq (process .exports (.obj [(cs!"./utils/*", .str cs!"./dist/*")]) cs!"./utils/timezone/../index" []) [cs!"./dist/timezone/../index"]
#guard okEq (process .exports (.obj [(cs!"./utils/", .str cs!"./dist/target/")]) cs!"./utils/../../index" []) [cs!"./dist/target/../../index"]
#guard okEq (process .exports (.obj [(cs!"./utils/*", .str cs!"./dist/target/*")]) cs!"./utils/../../index" []) [cs!"./dist/target/../../index"]
#guard okEq (process .exports (.obj [(cs!"./utils/", .obj [(cs!"browser", .str cs!"./node_modules/")])]) cs!"./utils/lodash/dist/index.js" [cs!"browser"]) [cs!"./node_modules/lodash/dist/index.js"]
#guard okEq (process .exports (.obj [(cs!"./utils/*", .obj [(cs!"browser", .str cs!"./node_modules/*")])]) cs!"./utils/lodash/dist/index.js" [cs!"browser"]) [cs!"./node_modules/lodash/dist/index.js"]
#guard okEq (process .exports (.obj [(cs!"./utils/", .str cs!"./utils/../node_modules/")]) cs!"./utils/lodash/dist/index.js" [cs!"browser"]) [cs!"./utils/../node_modules/lodash/dist/index.js"]
#guard okEq (process .exports (.obj [(cs!"./utils/*", .str cs!"./utils/../node_modules/*")]) cs!"./utils/lodash/dist/index.js" [cs!"browser"]) [cs!"./utils/../node_modules/lodash/dist/index.js"]
#guard okEq (process .exports (.obj [(cs!"./utils/", .obj [(cs!"browser", .obj [(cs!"webpack", .str cs!"./"), (cs!"default", .obj [(cs!"node", .str cs!"./node/")])])])]) cs!"./utils/index.js" [cs!"browser"]) []
#guard okEq (process .exports (.obj [(cs!"./utils/*", .obj [(cs!"browser", .obj [(cs!"webpack", .str cs!"./*"), (cs!"default", .obj [(cs!"node", .str cs!"./node/*")])])])]) cs!"./utils/index.js" [cs!"browser"]) []
#guard okEq (process .exports (.obj [(cs!"./utils/", .obj [(cs!"browser", .obj [(cs!"webpack", .arr [.str cs!"./", .str cs!"./node/"]), (cs!"default", .obj [(cs!"node", .str cs!"./node/")])])])]) cs!"./utils/index.js" [cs!"browser", cs!"webpack"]) [cs!"./index.js", cs!"./node/index.js"]
#guard okEq (process .exports (.obj [(cs!"./utils/*", .obj [(cs!"browser", .obj [(cs!"webpack", .arr [.str cs!"./*", .str cs!"./node/*"]), (cs!"default", .obj [(cs!"node", .str cs!"./node/*")])])])]) cs!"./utils/index.js" [cs!"browser", cs!"webpack"]) [cs!"./index.js", cs!"./node/index.js"]
#guard okEq (process .exports (.obj [(cs!"./utils/", .obj [(cs!"browser", .obj [(cs!"webpack", .arr [.str cs!"./", .str cs!"./node/"]), (cs!"default", .obj [(cs!"node", .str cs!"./node/")])])])]) cs!"./utils/index.js" [cs!"webpack"]) []
#guard okEq (process .exports (.obj [(cs!"./utils/*", .obj [(cs!"browser", .obj [(cs!"webpack", .arr [.str cs!"./*", .str cs!"./node/*"]), (cs!"default", .obj [(cs!"node", .str cs!"./node/*")])])])]) cs!"./utils/index.js" [cs!"webpack"]) []
#guard okEq (process .exports (.obj [(cs!"./utils/", .obj [(cs!"browser", .obj [(cs!"webpack", .arr [.str cs!"./", .str cs!"./node/"]), (cs!"default", .obj [(cs!"node", .str cs!"./node/")])])])]) cs!"./utils/index.js" [cs!"node", cs!"browser"]) [cs!"./node/index.js"]
#guard okEq (process .exports (.obj [(cs!"./utils/*", .obj [(cs!"browser", .obj [(cs!"webpack", .arr [.str cs!"./*", .str cs!"./node/*"]), (cs!"default", .obj [(cs!"node", .str cs!"./node/*")])])])]) cs!"./utils/index.js" [cs!"node", cs!"browser"]) [cs!"./node/index.js"]
#guard okEq (process .exports (.obj [(cs!"./utils/", .obj [(cs!"browser", .obj [(cs!"webpack", .arr [.str cs!"./", .str cs!"./node/"]), (cs!"default", .obj [(cs!"node", .obj [(cs!"webpack", .arr [.str cs!"./wpck/"])])])])])]) cs!"./utils/index.js" [cs!"browser", cs!"node"]) []
#guard okEq (process .exports (.obj [(cs!"./utils/*", .obj [(cs!"browser", .obj [(cs!"webpack", .arr [.str cs!"./*", .str cs!"./node/*"]), (cs!"default", .obj [(cs!"node", .obj [(cs!"webpack", .arr [.str cs!"./wpck/*"])])])])])]) cs!"./utils/index.js" [cs!"browser", cs!"node"]) []
#guard okEq (process .exports (.obj [(cs!"./utils/", .obj [(cs!"browser", .obj [(cs!"webpack", .arr [.str cs!"./", .str cs!"./node/"]), (cs!"default", .obj [(cs!"node", .obj [(cs!"webpack", .arr [.str cs!"./wpck/"])])])])])]) cs!"./utils/index.js" [cs!"browser", cs!"node", cs!"webpack"]) [cs!"./index.js", cs!"./node/index.js"]
#guard okEq (process .exports (.obj [(cs!"./utils/*", .obj [(cs!"browser", .obj [(cs!"webpack", .arr [.str cs!"./*", .str cs!"./node/*"]), (cs!"default", .obj [(cs!"node", .obj [(cs!"webpack", .arr [.str cs!"./wpck/*"])])])])])]) cs!"./utils/index.js" [cs!"browser", cs!"node", cs!"webpack"]) [cs!"./index.js", cs!"./node/index.js"]
#guard okEq (process .exports (.obj [(cs!"./a.js", .obj [(cs!"abc", .obj [(cs!"def", .str cs!"./x.js")]), (cs!"ghi", .str cs!"./y.js")])]) cs!"./a.js" [cs!"abc", cs!"ghi"]) [cs!"./y.js"]
#guard okEq (process .exports (.obj [(cs!"./a.js", .obj [(cs!"abc", .obj [(cs!"def", .str cs!"./x.js"), (cs!"default", .arr [])]), (cs!"ghi", .str cs!"./y.js")])]) cs!"./a.js" [cs!"abc", cs!"ghi"]) []
#guard errEq (process .exports (.obj [(cs!"./utils/", .obj [(cs!"browser", .str cs!"../this/")])]) cs!"./utils/index" [cs!"browser"]) cs!"Export should be relative path and start with \"./\", but got ../this/"
#guard errEq (process .exports (.obj [(cs!"./utils/*", .obj [(cs!"browser", .str cs!"../this/*")])]) cs!"./utils/index" [cs!"browser"]) cs!"Export should be relative path and start with \"./\", but got ../this/*"
#guard errEq (process .exports (.obj [(cs!".", .obj [(cs!"default", .str cs!"./src/index.js"), (cs!"browser", .str cs!"./index.js"), (cs!"node", .str cs!"./src/node/index.js")])]) cs!"." [cs!"browser"]) cs!"Default condition should be last one"
#guard errEq (process .exports (.obj [(cs!"./*", .str cs!".")]) cs!"./timezones/pdt.mjs" []) cs!"Export should be relative path and start with \"./\", but got ."
#guard errEq (process .exports (.obj [(cs!"./", .str cs!".")]) cs!"./timezones/pdt.mjs" []) cs!"Export should be relative path and start with \"./\", but got ."
#guard errEq (process .exports (.obj [(cs!"./timezones/", .str cs!"./data/timezones")]) cs!"./timezones/pdt.mjs" []) cs!"Expected ./data/timezones is folder mapping"
#guard errEq (process .exports (.obj [(cs!"./node", .str cs!"./node.js"), (cs!"browser", .obj [(cs!"default", .str cs!"./index.js")])]) cs!"." [cs!"browser"]) cs!"Export field key can't mixed relative path and conditional object"
#guard errEq (process .exports (.obj [(cs!"browser", .obj [(cs!"default", .str cs!"./index.js")]), (cs!"./node", .str cs!"./node.js")]) cs!"." [cs!"browser"]) cs!"Export field key can't mixed relative path and conditional object"
#guard errEq (process .exports (.obj [(cs!"/utils/", .str cs!"./a/")]) cs!"./utils/index.mjs" []) cs!"Export field key should be relative path and start with \"./\", but got /utils/"
#guard errEq (process .exports (.obj [(cs!"./utils/", .str cs!"/a/")]) cs!"./utils/index.mjs" []) cs!"Export should be relative path and start with \"./\", but got /a/"
#guard errEq (process .exports (.obj [(cs!"./utils/", .str cs!"./a/")]) cs!"/utils/index.mjs" []) cs!"Request should be relative path and start with '.', but got /utils/index.mjs"
#guard errEq (process .exports (.obj [(cs!"./utils/", .obj [(cs!"browser", .str cs!"./a/"), (cs!"default", .str cs!"./b/")])]) cs!"/utils/index.mjs" [cs!"browser"]) cs!"Request should be relative path and start with '.', but got /utils/index.mjs"
#guard errEq (process .exports (.obj [(cs!"./utils/", .obj [(cs!"browser", .str cs!"./a/"), (cs!"default", .str cs!"./b/")])]) cs!"/utils/index.mjs/" [cs!"browser"]) cs!"Request should be relative path and start with '.', but got /utils/index.mjs/"
#guard errEq (process .exports (.obj [(cs!"./utils/", .obj [(cs!"browser", .str cs!"./a/"), (cs!"default", .str cs!"./b/")])]) cs!"../utils/index.mjs" [cs!"browser"]) cs!"Request should be relative path and start with '.', but got ../utils/index.mjs"
#guard errEq (process .exports (.obj [(cs!"../../utils/", .str cs!"./dist/")]) cs!"../../utils/index" []) cs!"Export field key should be relative path and start with \"./\", but got ../../utils/"
#guard errEq (process .exports (.obj [(cs!"../../utils/*", .str cs!"./dist/*")]) cs!"../../utils/index" []) cs!"Export field key should be relative path and start with \"./\", but got ../../utils/*"
#guard errEq (process .exports (.obj [(cs!"./utils/", .str cs!"../src/")]) cs!"./utils/index" []) cs!"Export should be relative path and start with \"./\", but got ../src/"
#guard errEq (process .exports (.obj [(cs!"./utils/*", .str cs!"../src/*")]) cs!"./utils/index" []) cs!"Export should be relative path and start with \"./\", but got ../src/*"
#guard errEq (process .exports (.obj [(cs!"/utils/", .obj [(cs!"browser", .str cs!"./a/"), (cs!"default", .str cs!"./b/")])]) cs!"./utils/index.mjs" [cs!"browser"]) cs!"Export field key should be relative path and start with \"./\", but got /utils/"
#guard errEq (process .exports (.obj [(cs!"./utils/", .obj [(cs!"browser", .str cs!"/a/"), (cs!"default", .str cs!"/b/")])]) cs!"./utils/index.mjs" [cs!"browser"]) cs!"Export should be relative path and start with \"./\", but got /a/"
#guard errEq (process .exports (.obj [(cs!"./utils/*", .obj [(cs!"browser", .str cs!"/a/"), (cs!"default", .str cs!"/b/")])]) cs!"./utils/index.mjs" [cs!"browser"]) cs!"Export should be relative path and start with \"./\", but got /a/"
#guard okEq (process .imports (.obj [(cs!"#abc/", .obj [(cs!"import", .arr [.str cs!"./dist/", .str cs!"./src/"]), (cs!"webpack", .str cs!"./wp/")]), (cs!"#abc", .str cs!"./main.js")]) cs!"#abc/test/file.js" [cs!"import", cs!"webpack"]) [cs!"./dist/test/file.js", cs!"./src/test/file.js"]
#guard okEq (process .imports (.obj [(cs!"#1/timezones/", .str cs!"./data/timezones/")]) cs!"#1/timezones/pdt.mjs" []) [cs!"./data/timezones/pdt.mjs"]
#guard okEq (process .imports (.obj [(cs!"#aaa/", .str cs!"./data/timezones/"), (cs!"#a/", .str cs!"./data/timezones/")]) cs!"#a/timezones/pdt.mjs" []) [cs!"./data/timezones/timezones/pdt.mjs"]
#guard okEq (process .imports (.obj [(cs!"#a/lib/", .obj [(cs!"browser", .arr [.str cs!"./browser/"])]), (cs!"#a/dist/index.js", .obj [(cs!"node", .str cs!"./index.js")])]) cs!"#a/dist/index.js" [cs!"browser"]) []
#guard okEq (process .imports (.obj [(cs!"#a/lib/", .obj [(cs!"browser", .arr [.str cs!"./browser/"])]), (cs!"#a/dist/index.js", .obj [(cs!"node", .str cs!"./index.js"), (cs!"default", .str cs!"./browser/index.js")])]) cs!"#a/dist/index.js" [cs!"browser"]) [cs!"./browser/index.js"]
#guard okEq (process .imports (.obj [(cs!"#a/dist/a", .str cs!"./dist/index.js")]) cs!"#a/dist/aaa" []) []
#guard okEq (process .imports (.obj [(cs!"#a/a/a/", .str cs!"./dist/index.js")]) cs!"#a/a/a" []) []
#guard okEq (process .imports (.obj [(cs!"#a/a/a/", .str cs!"./dist/index.js")]) cs!"#a/a/a" []) []
#guard okEq (process .imports (.obj [(cs!"#a", .str cs!"./index.js")]) cs!"#a/timezones/pdt.mjs" []) []
#guard okEq (process .imports (.obj [(cs!"#a/index.js", .str cs!"./main.js")]) cs!"#a/index.js" []) [cs!"./main.js"]
#guard okEq (process .imports (.obj [(cs!"#a/#foo", .str cs!"./ok.js"), (cs!"#a/module", .str cs!"./ok.js"), (cs!"#a/🎉", .str cs!"./ok.js"), (cs!"#a/%F0%9F%8E%89", .str cs!"./other.js"), (cs!"#a/bar#foo", .str cs!"./ok.js"), (cs!"#a/#zapp/", .str cs!"./")]) cs!"#a/#foo" []) [cs!"./ok.js"]
#guard okEq (process .imports (.obj [(cs!"#a/#foo", .str cs!"./ok.js"), (cs!"#a/module", .str cs!"./ok.js"), (cs!"#a/🎉", .str cs!"./ok.js"), (cs!"#a/%F0%9F%8E%89", .str cs!"./other.js"), (cs!"#a/bar#foo", .str cs!"./ok.js"), (cs!"#a/#zapp/", .str cs!"./")]) cs!"#a/bar#foo" []) [cs!"./ok.js"]
#guard okEq (process .imports (.obj [(cs!"#a/#foo", .str cs!"./ok.js"), (cs!"#a/module", .str cs!"./ok.js"), (cs!"#a/🎉", .str cs!"./ok.js"), (cs!"#a/%F0%9F%8E%89", .str cs!"./other.js"), (cs!"#a/bar#foo", .str cs!"./ok.js"), (cs!"#a/#zapp/", .str cs!"./")]) cs!"#a/#zapp/ok.js#abc" []) [cs!"./ok.js#abc"]
#guard okEq (process .imports (.obj [(cs!"#a/#foo", .str cs!"./ok.js"), (cs!"#a/module", .str cs!"./ok.js"), (cs!"#a/🎉", .str cs!"./ok.js"), (cs!"#a/%F0%9F%8E%89", .str cs!"./other.js"), (cs!"#a/bar#foo", .str cs!"./ok.js"), (cs!"#a/#zapp/", .str cs!"./")]) cs!"#a/#zapp/ok.js?abc" []) [cs!"./ok.js?abc"]
#guard okEq (process .imports (.obj [(cs!"#a/#foo", .str cs!"./ok.js"), (cs!"#a/module", .str cs!"./ok.js"), (cs!"#a/🎉", .str cs!"./ok.js"), (cs!"#a/%F0%9F%8E%89", .str cs!"./other.js"), (cs!"#a/bar#foo", .str cs!"./ok.js"), (cs!"#a/#zapp/", .str cs!"./")]) cs!"#a/#zapp/🎉.js" []) [cs!"./🎉.js"]
#guard okEq (process .imports (.obj [(cs!"#a/#foo", .str cs!"./ok.js"), (cs!"#a/module", .str cs!"./ok.js"), (cs!"#a/🎉", .str cs!"./ok.js"), (cs!"#a/%F0%9F%8E%89", .str cs!"./other.js"), (cs!"#a/bar#foo", .str cs!"./ok.js"), (cs!"#a/#zapp/", .str cs!"./")]) cs!"#a/#zapp/%F0%9F%8E%89.js" []) [cs!"./%F0%9F%8E%89.js"]
#guard okEq (process .imports (.obj [(cs!"#a/#foo", .str cs!"./ok.js"), (cs!"#a/module", .str cs!"./ok.js"), (cs!"#a/🎉", .str cs!"./ok.js"), (cs!"#a/%F0%9F%8E%89", .str cs!"./other.js"), (cs!"#a/bar#foo", .str cs!"./ok.js"), (cs!"#a/#zapp/", .str cs!"./")]) cs!"#a/🎉" []) [cs!"./ok.js"]
#guard okEq (process .imports (.obj [(cs!"#a/#foo", .str cs!"./ok.js"), (cs!"#a/module", .str cs!"./ok.js"), (cs!"#a/🎉", .str cs!"./ok.js"), (cs!"#a/%F0%9F%8E%89", .str cs!"./other.js"), (cs!"#a/bar#foo", .str cs!"./ok.js"), (cs!"#a/#zapp/", .str cs!"./")]) cs!"#a/%F0%9F%8E%89" []) [cs!"./other.js"]
#guard okEq (process .imports (.obj [(cs!"#a/#foo", .str cs!"./ok.js"), (cs!"#a/module", .str cs!"./ok.js"), (cs!"#a/🎉", .str cs!"./ok.js"), (cs!"#a/%F0%9F%8E%89", .str cs!"./other.js"), (cs!"#a/bar#foo", .str cs!"./ok.js"), (cs!"#a/#zapp/", .str cs!"./")]) cs!"#a/module" []) [cs!"./ok.js"]
#guard okEq (process .imports (.obj [(cs!"#a/#foo", .str cs!"./ok.js"), (cs!"#a/module", .str cs!"./ok.js"), (cs!"#a/🎉", .str cs!"./ok.js"), (cs!"#a/%F0%9F%8E%89", .str cs!"./other.js"), (cs!"#a/bar#foo", .str cs!"./ok.js"), (cs!"#a/#zapp/", .str cs!"./")]) cs!"#a/module#foo" []) []
#guard okEq (process .imports (.obj [(cs!"#a/#foo", .str cs!"./ok.js"), (cs!"#a/module", .str cs!"./ok.js"), (cs!"#a/🎉", .str cs!"./ok.js"), (cs!"#a/%F0%9F%8E%89", .str cs!"./other.js"), (cs!"#a/bar#foo", .str cs!"./ok.js"), (cs!"#a/#zapp/", .str cs!"./")]) cs!"#a/module?foo" []) []
#guard okEq (process .imports (.obj [(cs!"#a/a?b?c/", .str cs!"./")]) cs!"#a/a?b?c/d?e?f" []) [cs!"./d?e?f"]
#guard okEq (process .imports (.obj [(cs!"#a/", .str cs!"/user/a/")]) cs!"#a/index" []) [cs!"/user/a/index"]
#guard okEq (process .imports (.obj [(cs!"#a/", .str cs!"./A/"), (cs!"#a/b/c", .str cs!"./c.js")]) cs!"#a/b/d.js" []) [cs!"./A/b/d.js"]
#guard okEq (process .imports (.obj [(cs!"#a/", .str cs!"./A/"), (cs!"#a/b", .str cs!"./b.js")]) cs!"#a/c.js" []) [cs!"./A/c.js"]
#guard okEq (process .imports (.obj [(cs!"#a/", .str cs!"./A/"), (cs!"#a/b/c/d", .str cs!"./c.js")]) cs!"#a/b/c/d.js" []) [cs!"./A/b/c/d.js"]
#guard okEq (process .imports (.obj [(cs!"#a", .str cs!"./dist/index.js")]) cs!"#a" []) [cs!"./dist/index.js"]
#guard okEq (process .imports (.obj [(cs!"#a/", .str cs!"./")]) cs!"#a" []) []
#guard okEq (process .imports (.obj [(cs!"#a/", .str cs!"./dist/"), (cs!"#a/index.js", .str cs!"./dist/a.js")]) cs!"#a/index.js" []) [cs!"./dist/a.js"]
#guard okEq (process .imports (.obj [(cs!"#a/", .obj [(cs!"browser", .arr [.str cs!"./browser/"])]), (cs!"#a/index.js", .obj [(cs!"browser", .str cs!"./index.js")])]) cs!"#a/index.js" [cs!"browser"]) [cs!"./index.js"]
#guard okEq (process .imports (.obj [(cs!"#a/", .obj [(cs!"browser", .arr [.str cs!"./browser/"])]), (cs!"#a/index.js", .obj [(cs!"node", .str cs!"./node.js")])]) cs!"#a/index.js" [cs!"browser"]) []
#guard okEq (process .imports (.obj [(cs!"#a", .obj [(cs!"browser", .str cs!"./index.js"), (cs!"node", .str cs!"./src/node/index.js"), (cs!"default", .str cs!"./src/index.js")])]) cs!"#a" [cs!"browser"]) [cs!"./index.js"]
#guard okEq (process .imports (.obj [(cs!"#a", .obj [(cs!"browser", .str cs!"./index.js"), (cs!"node", .str cs!"./src/node/index.js"), (cs!"default", .str cs!"./src/index.js")])]) cs!"#a" []) [cs!"./src/index.js"]
#guard okEq (process .imports (.obj [(cs!"#a", .str cs!"./index")]) cs!"#a" []) [cs!"./index"]
#guard okEq (process .imports (.obj [(cs!"#a/index", .str cs!"./index.js")]) cs!"#a/index" []) [cs!"./index.js"]
#guard okEq (process .imports (.obj [(cs!"#a", .str cs!"b")]) cs!"#a" []) [cs!"b"]
#guard okEq (process .imports (.obj [(cs!"#a/", .str cs!"b/")]) cs!"#a/index" []) [cs!"b/index"]
#guard okEq (process .imports (.obj [(cs!"#a?q=a#hashishere", .str cs!"b#anotherhashishere")]) cs!"#a?q=a#hashishere" []) [cs!"b#anotherhashishere"]
#guard okEq (process .imports (.obj [(cs!"#a", .arr [.obj [(cs!"browser", .str cs!"./browser.js")], .obj [(cs!"require", .str cs!"./require.js")], .obj [(cs!"import", .str cs!"./import.mjs")]])]) cs!"#a" []) []
#guard okEq (process .imports (.obj [(cs!"#a", .arr [.obj [(cs!"browser", .str cs!"./browser.js")], .obj [(cs!"require", .str cs!"./require.js")], .obj [(cs!"import", .str cs!"./import.mjs")]])]) cs!"#a" [cs!"import"]) [cs!"./import.mjs"]
#guard okEq (process .imports (.obj [(cs!"#a", .arr [.obj [(cs!"browser", .str cs!"./browser.js")], .obj [(cs!"require", .str cs!"./require.js")], .obj [(cs!"import", .str cs!"./import.mjs")]])]) cs!"#a" [cs!"import", cs!"require"]) [cs!"./require.js", cs!"./import.mjs"]
#guard okEq (process .imports (.obj [(cs!"#a", .arr [.obj [(cs!"browser", .str cs!"./browser.js")], .obj [(cs!"require", .str cs!"./require.js")], .obj [(cs!"import", .arr [.str cs!"./import.mjs", .str cs!"#b/import.js"])]])]) cs!"#a" [cs!"import", cs!"require"]) [cs!"./require.js", cs!"./import.mjs", cs!"#b/import.js"]
#guard okEq (process .imports (.obj [(cs!"#timezones", .str cs!"./data/timezones/")]) cs!"#timezones/pdt.mjs" []) []
#guard okEq (process .imports (.obj [(cs!"#timezones/pdt/", .str cs!"./data/timezones/pdt/")]) cs!"#timezones/pdt/index.mjs" []) [cs!"./data/timezones/pdt/index.mjs"]
#guard okEq (process .imports (.obj [(cs!"#a/", .str cs!"./timezones/")]) cs!"#a/pdt.mjs" []) [cs!"./timezones/pdt.mjs"]
#guard okEq (process .imports (.obj [(cs!"#a/", .str cs!"./")]) cs!"#a/timezones/pdt.mjs" []) [cs!"./timezones/pdt.mjs"]
#guard okEq (process .imports (.obj [(cs!"#a", .str cs!".")]) cs!"#a/timezones/pdt.mjs" []) []
#guard okEq (process .imports (.obj [(cs!"#a", .str cs!"./")]) cs!"#a/timezones/pdt.mjs" []) []
#guard okEq (process .imports (.obj [(cs!"#a/", .str cs!"./"), (cs!"#a/dist/", .str cs!"./lib/")]) cs!"#a/dist/index.mjs" []) [cs!"./lib/index.mjs"]
#guard okEq (process .imports (.obj [(cs!"#a/dist/utils/", .str cs!"./dist/utils/"), (cs!"#a/dist/", .str cs!"./lib/")]) cs!"#a/dist/utils/index.js" []) [cs!"./dist/utils/index.js"]
#guard okEq (process .imports (.obj [(cs!"#a/dist/utils/index.js", .str cs!"./dist/utils/index.js"), (cs!"#a/dist/utils/", .str cs!"./dist/utils/index.mjs"), (cs!"#a/dist/", .str cs!"./lib/")]) cs!"#a/dist/utils/index.js" []) [cs!"./dist/utils/index.js"]
#guard okEq (process .imports (.obj [(cs!"#a/", .obj [(cs!"browser", .str cs!"./browser/")]), (cs!"#a/dist/", .str cs!"./lib/")]) cs!"#a/dist/index.js" []) [cs!"./lib/index.js"]
#guard okEq (process .imports (.obj [(cs!"#a/", .obj [(cs!"browser", .str cs!"./browser/")]), (cs!"#a/dist/", .str cs!"./lib/")]) cs!"#a/dist/index.js" [cs!"browser"]) [cs!"./lib/index.js"]
#guard okEq (process .imports (.obj [(cs!"#a/", .obj [(cs!"browser", .arr [.str cs!"lodash/", .str cs!"./utils/"]), (cs!"node", .arr [.str cs!"./utils-node/"])])]) cs!"#a/index.js" [cs!"browser"]) [cs!"lodash/index.js", cs!"./utils/index.js"]
#guard okEq (process .imports (.obj [(cs!"#a/", .obj [(cs!"webpack", .str cs!"./wpk"), (cs!"browser", .arr [.str cs!"lodash/", .str cs!"./utils/"]), (cs!"node", .arr [.str cs!"./node/"])])]) cs!"#a/index.mjs" []) []
#guard okEq (process .imports (.obj [(cs!"#a/", .obj [(cs!"webpack", .str cs!"./wpk/"), (cs!"browser", .arr [.str cs!"lodash/", .str cs!"./utils/"]), (cs!"node", .arr [.str cs!"./node/"])])]) cs!"#a/index.mjs" [cs!"browser", cs!"webpack"]) [cs!"./wpk/index.mjs"]
#guard okEq (process .imports (.obj [(cs!"#a/index", .str cs!"./a/index.js")]) cs!"#a/index.mjs" []) []
#guard okEq (process .imports (.obj [(cs!"#a/index.mjs", .str cs!"./a/index.js")]) cs!"#a/index" []) []
#guard okEq (process .imports (.obj [(cs!"#a/index", .obj [(cs!"browser", .str cs!"./a/index.js"), (cs!"default", .str cs!"./b/index.js")])]) cs!"#a/index.mjs" [cs!"browser"]) []
#guard okEq (process .imports (.obj [(cs!"#a/index.mjs", .obj [(cs!"browser", .str cs!"./a/index.js"), (cs!"default", .str cs!"./b/index.js")])]) cs!"#a/index" [cs!"browser"]) []
#guard okEq (process .imports (.obj [(cs!"#a/../../utils/", .str cs!"./dist/")]) cs!"#a/../../utils/index" []) [cs!"./dist/index"]
#guard okEq (process .imports (.obj [(cs!"#a/", .str cs!"./dist/")]) cs!"#a/../../utils/index" []) [cs!"./dist/../../utils/index"]
#guard okEq (process .imports (.obj [(cs!"#a/", .str cs!"../src/")]) cs!"#a/index" []) [cs!"../src/index"]
#guard okEq (process .imports (.obj [(cs!"#a/", .obj [(cs!"browser", .str cs!"./utils/../../../")])]) cs!"#a/index" [cs!"browser"]) [cs!"./utils/../../../index"]
#guard okEq (process .imports (.obj [(cs!"#a/", .obj [(cs!"browser", .str cs!"moment/node_modules/")])]) cs!"#a/lodash/dist/index.js" [cs!"browser"]) [cs!"moment/node_modules/lodash/dist/index.js"]
#guard okEq (process .imports (.obj [(cs!"#a/", .str cs!"../node_modules/")]) cs!"#a/lodash/dist/index.js" [cs!"browser"]) [cs!"../node_modules/lodash/dist/index.js"]
#guard okEq (process .imports (.obj [(cs!"#a/", .str cs!"../node_modules/")]) cs!"#a/lodash/dist/index.js" []) [cs!"../node_modules/lodash/dist/index.js"]
#guard okEq (process .imports (.obj [(cs!"#a/", .obj [(cs!"browser", .obj [(cs!"webpack", .str cs!"./"), (cs!"default", .obj [(cs!"node", .str cs!"./node/")])])])]) cs!"#a/index.js" [cs!"browser"]) []
#guard okEq (process .imports (.obj [(cs!"#a/", .obj [(cs!"browser", .obj [(cs!"webpack", .arr [.str cs!"./", .str cs!"./node/"]), (cs!"default", .obj [(cs!"node", .str cs!"./node/")])])])]) cs!"#a/index.js" [cs!"browser", cs!"webpack"]) [cs!"./index.js", cs!"./node/index.js"]
#guard okEq (process .imports (.obj [(cs!"#a/", .obj [(cs!"browser", .obj [(cs!"webpack", .arr [.str cs!"./", .str cs!"./node/"]), (cs!"default", .obj [(cs!"node", .str cs!"./node/")])])])]) cs!"#a/index.js" [cs!"webpack"]) []
#guard okEq (process .imports (.obj [(cs!"#a/", .obj [(cs!"browser", .obj [(cs!"webpack", .arr [.str cs!"./", .str cs!"./node/"]), (cs!"default", .obj [(cs!"node", .str cs!"moment/node/")])])])]) cs!"#a/index.js" [cs!"node", cs!"browser"]) [cs!"moment/node/index.js"]
#guard okEq (process .imports (.obj [(cs!"#a/", .obj [(cs!"browser", .obj [(cs!"webpack", .arr [.str cs!"./", .str cs!"./node/"]), (cs!"default", .obj [(cs!"node", .obj [(cs!"webpack", .arr [.str cs!"./wpck"])])])])])]) cs!"#a/index.js" [cs!"browser", cs!"node", cs!"webpack"]) [cs!"./index.js", cs!"./node/index.js"]
#guard okEq (process .imports (.obj [(cs!"#a", .obj [(cs!"abc", .obj [(cs!"def", .str cs!"./x.js")]), (cs!"ghi", .str cs!"./y.js")])]) cs!"#a" [cs!"abc", cs!"ghi"]) [cs!"./y.js"]
#guard okEq (process .imports (.obj [(cs!"#a", .obj [(cs!"abc", .obj [(cs!"def", .str cs!"./x.js"), (cs!"default", .arr [])]), (cs!"ghi", .str cs!"./y.js")])]) cs!"#a" [cs!"abc", cs!"ghi"]) []
#guard errEq (process .imports (.obj [(cs!"/utils/", .str cs!"./a/")]) cs!"#a/index.mjs" []) cs!"Imports field key should start with #, but got /utils/"
#guard errEq (process .imports (.obj [(cs!"/utils/", .obj [(cs!"browser", .str cs!"./a/"), (cs!"default", .str cs!"./b/")])]) cs!"#a/index.mjs" []) cs!"Imports field key should start with #, but got /utils/"
#guard errEq (process .imports (.obj [(cs!"#a", .obj [(cs!"default", .str cs!"./src/index.js"), (cs!"browser", .str cs!"./index.js"), (cs!"node", .str cs!"./src/node/index.js")])]) cs!"#a" [cs!"browser"]) cs!"Default condition should be last one"
#guard errEq (process .imports (.obj [(cs!"#timezones/", .str cs!"./data/timezones")]) cs!"#timezones/pdt.mjs" []) cs!"Expected ./data/timezones is folder mapping"
#guard errEq (process .imports (.obj [(cs!"#a/", .str cs!"./a/")]) cs!"/utils/index.mjs" []) cs!"Request should start with #, but got /utils/index.mjs"
#guard errEq (process .imports (.obj [(cs!"#a/", .obj [(cs!"browser", .str cs!"./a/"), (cs!"default", .str cs!"./b/")])]) cs!"/utils/index.mjs" []) cs!"Request should start with #, but got /utils/index.mjs"
#guard errEq (process .imports (.obj [(cs!"#a/", .obj [(cs!"browser", .str cs!"./a/"), (cs!"default", .str cs!"./b/")])]) cs!"#" [cs!"browser"]) cs!"Request should have at least 2 characters"
#guard errEq (process .imports (.obj [(cs!"#a/", .obj [(cs!"browser", .str cs!"./a/"), (cs!"default", .str cs!"./b/")])]) cs!"#/" [cs!"browser"]) cs!"Import field key should not start with #/, but got #/"
#guard errEq (process .imports (.obj [(cs!"#a/", .obj [(cs!"browser", .str cs!"./a/"), (cs!"default", .str cs!"./b/")])]) cs!"#a/" [cs!"browser"]) cs!"Only requesting file allowed"

end Verif.Test
