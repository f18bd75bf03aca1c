import Verif.Proofs.Dirs
import Verif.Proofs.Contain
import Verif.Proofs.Sim
import Verif.Proofs.Errors
import Verif.Proofs.Yields
import Verif.Proofs.Parse
import Verif.Spec.Packages
/-!
# Bare requests with description files
-/

namespace Verif

/-! ## The containment check -/

theorem checkSegs_count (segs : List Str) (cd : Nat) :
    checkSegs segs cd = true ↔ ∀ pre, pre <+: segs.dropLast →
      pre.countP (fun s => cs!"..".isPrefixOf s) ≤
        cd + pre.countP (fun s => !cs!".".isPrefixOf s) := by
  induction segs generalizing cd with
  | nil =>
    simp only [checkSegs, List.dropLast_nil, List.prefix_nil, forall_eq, List.countP_nil, true_iff]
    omega
  | cons s segs ih =>
    cases segs with
    | nil =>
      simp only [checkSegs, List.dropLast_singleton, List.prefix_nil, forall_eq, List.countP_nil,
        true_iff]
      omega
    | cons t l =>
      have hall : ∀ Q : List Str → Prop, Q [] → ((∀ pre, pre <+: (s :: t :: l).dropLast → Q pre) ↔
          ∀ pre, pre <+: (t :: l).dropLast → Q (s :: pre)) := by
        intro Q hQ
        rw [List.dropLast_cons_of_ne_nil (by simp)]
        constructor
        · intro h pre hp
          exact h _ (List.cons_prefix_cons.2 ⟨rfl, hp⟩)
        · intro h pre hp
          cases pre with
          | nil => exact hQ
          | cons x pre =>
            obtain ⟨rfl, hp'⟩ := List.cons_prefix_cons.1 hp
            exact h _ hp'
      rw [hall _ (by simp), checkSegs]
      by_cases h2 : cs!".." <+: s
      · have h1 : cs!"." <+: s := (by decide : cs!"." <+: cs!"..").trans h2
        have e2 : cs!"..".isPrefixOf s = true := by rwa [List.isPrefixOf_iff_prefix]
        have e1 : cs!".".isPrefixOf s = true := by rwa [List.isPrefixOf_iff_prefix]
        rw [if_pos h2]
        simp only [List.countP_cons, e1, e2, if_true, Bool.not_true, Bool.false_eq_true, if_false]
        cases cd with
        | zero =>
          rw [if_pos (by omega)]
          simp only [Bool.false_eq_true, false_iff]
          intro h
          have := h [] (List.nil_prefix)
          simp at this
        | succ cd =>
          rw [if_neg (by omega), show ((cd + 1 : Nat) : Int) - 1 = (cd : Nat) by omega, ih cd]
          constructor
          · intro h pre hp; have := h pre hp; omega
          · intro h pre hp; have := h pre hp; omega
      · have e2 : cs!"..".isPrefixOf s = false := by
          rw [Bool.eq_false_iff]; simpa only [ne_eq, List.isPrefixOf_iff_prefix] using h2
        rw [if_neg h2]
        by_cases h1 : cs!"." <+: s
        · have e1 : cs!".".isPrefixOf s = true := by rwa [List.isPrefixOf_iff_prefix]
          rw [if_pos h1, ih cd]
          simp only [List.countP_cons, e1, e2, Bool.not_true, Bool.false_eq_true, if_false,
            Nat.add_zero]
        · have e1 : cs!".".isPrefixOf s = false := by
            rw [Bool.eq_false_iff]; simpa only [ne_eq, List.isPrefixOf_iff_prefix] using h1
          rw [if_neg h1, show (cd : Int) + 1 = ((cd + 1 : Nat) : Int) by omega, ih (cd + 1)]
          simp only [List.countP_cons, e1, e2, Bool.not_false, Bool.false_eq_true, if_false, if_true,
            Nat.add_zero]
          constructor
          · intro h pre hp; have := h pre hp; omega
          · intro h pre hp; have := h pre hp; omega

theorem contained_iff (t : Str) : checkTarget t = true ↔ Contained t := by
  rw [checkTarget_segs]
  have := checkSegs_count (splitC '/' t) 0
  simp only [Nat.zero_add] at this
  exact this

theorem usable_iff (c : Ctx) (dir t : Str) :
    (c.fs.isFile (Info.getPath ⟨dir, parseRequest t⟩) && checkTarget (parseRequest t).target) = true ↔
      Usable c.fs dir t := by
  rw [Bool.and_eq_true, contained_iff, getPath_eq]
  rfl

theorem exportsPick_first {c : Ctx} {dir : Str} {l : List Str} {t : Str}
    (h : FirstIn (Usable c.fs dir) l t) : exportsPick c dir l = some ⟨dir, parseRequest t⟩ := by
  obtain ⟨a, b, rfl, ht, ha⟩ := h
  induction a with
  | nil =>
    simp only [List.nil_append, exportsPick]
    rw [if_pos ((usable_iff c dir t).2 ht)]
  | cons x a ih =>
    simp only [List.cons_append, exportsPick]
    rw [if_neg (fun hx => ha x (List.mem_cons_self ..) ((usable_iff c dir x).1 hx))]
    exact ih fun y hy => ha y (List.mem_cons_of_mem _ hy)

theorem exportsPick_none {c : Ctx} {dir : Str} {l : List Str}
    (h : ∀ t ∈ l, ¬ Usable c.fs dir t) : exportsPick c dir l = none := by
  induction l with
  | nil => rfl
  | cons x l ih =>
    simp only [exportsPick]
    rw [if_neg (fun hx => h x (List.mem_cons_self ..) ((usable_iff c dir x).1 hx))]
    exact ih fun y hy => h y (List.mem_cons_of_mem _ hy)

/-! ## Exports -/

theorem exportsApply_iff (pkg : Pkg) (info : Info) :
    (!isInModule pkg && !isResolveSelf pkg info) = false ↔ ExportsApply pkg info.request.target := by
  unfold ExportsApply isInModule isResolveSelf
  rw [← Bool.not_or, Bool.not_eq_false', Bool.or_eq_true, containsStr_iff]
  refine or_congr Iff.rfl ?_
  cases pkg.name with
  | none => simp
  | some name => simp [startsWith_iff]

theorem ownName_iff (pkg : Option Pkg) (info : Info) :
    selfOf pkg info = true ↔ OwnName pkg info.request.target := by
  unfold OwnName selfOf isResolveSelf
  cases pkg with
  | none => simp
  | some p =>
    simp only
    cases hn : p.name with
    | none => simp [hn]
    | some name => simp [hn, startsWith_iff]

/-- The package name is followed by nothing or by a separator. -/
theorem packageName_rest {name rest : Str} (h : PackageName (name ++ rest) name) :
    rest = [] ∨ cs!"/" <+: rest := by
  generalize ht : name ++ rest = t at h
  cases h with
  | plain _ _ hr => rw [List.append_cancel_left ht]; exact hr
  | @inScope a b rest' _ _ _ hr =>
    have : rest = rest' := by simpa using ht
    rw [this]; exact hr
  | scope => exact .inl (by simpa using ht)

theorem exportsRequestOf_spec {c : Ctx} {pkg : Pkg} {info : Info} {name rest : Str}
    (ht : info.request.target = name ++ rest) (hn : PackageName (name ++ rest) name)
    (hs : cs!"@" <+: name → '/' ∈ name)
    (hex : rest ≠ [] ∨ pkg.name = some name ∨ c.fs.pathExists (pjoin info.path name) = true) :
    exportsRequestOf c pkg info =
      .ret (some (exportsKey rest info.request.query info.request.fragment)) := by
  have hr := packageName_rest hn
  have hchars : ∃ last, '/' ∉ last ∧
      (if startsWith (name ++ rest) cs!"@" then (splitFirst '/' (name ++ rest)).map fun (_, b) => b.drop 1
        else some (name ++ rest)) = some (last ++ rest) := by
    generalize hg : name ++ rest = t at hn
    cases hn with
    | @plain _ rest' hat hn hr' =>
      have := List.append_cancel_left hg
      subst this
      exact ⟨name, hn, by rw [if_neg (by rwa [startsWith_iff])]⟩
    | @inScope a b rest' hat ha hb hr' =>
      have : rest = rest' := by simpa using hg
      subst this
      refine ⟨b, hb, ?_⟩
      rw [if_pos (by rw [startsWith_iff]; exact hat.trans (List.prefix_append ..)),
        splitFirst_append ha]
      rfl
    | scope hat ha => exact absurd (hs hat) ha
  obtain ⟨last, hl, hc⟩ := hchars
  unfold exportsRequestOf
  rw [ht]
  simp only [hc]
  unfold exportsKey
  have hq : (info.request.query ≠ [] ∨ info.request.fragment ≠ []) ↔
      ¬ (info.request.query = [] ∧ info.request.fragment = []) := by grind
  simp only [hq]
  rcases hr with rfl | ⟨r, rfl⟩
  · have hex : (c.fs.pathExists (pjoin info.path name) || decide (pkg.name = some name)) = true := by
      rcases hex with h | h | h
      · exact absurd rfl h
      · simp [h]
      · simp [h]
    simp only [List.append_nil, splitFirst_none.2 hl, hex, if_true]
    by_cases h : info.request.query = [] ∧ info.request.fragment = []
    · rw [if_neg (by simpa using h), if_pos h]
    · rw [if_pos h, if_neg h]
  · simp only [List.singleton_append, splitFirst_append hl]
    by_cases h : info.request.query = [] ∧ info.request.fragment = []
    · rw [if_neg (by simpa using h), if_pos h]
    · rw [if_pos h, if_neg h]
      simp

/-- The name of another package that is not there. -/
theorem exportsRequestOf_none {c : Ctx} {pkg : Pkg} {info : Info} {name : Str}
    (ht : info.request.target = name) (hn : PackageName name name)
    (hs : cs!"@" <+: name → '/' ∈ name) (hno : c.fs.pathExists (pjoin info.path name) = false)
    (hne : pkg.name ≠ some name) : exportsRequestOf c pkg info = .ret none := by
  have hchars : ∃ last, '/' ∉ last ∧
      (if startsWith name cs!"@" then (splitFirst '/' name).map fun (_, b) => b.drop 1
        else some name) = some last := by
    generalize hg : name = t at hn
    have hn' : PackageName t name := hg ▸ hn
    clear hn
    cases hn' with
    | @plain _ rest' hat hn hr' =>
      have : rest' = [] := by simpa using hg
      subst this
      exact ⟨name, hn, by rw [if_neg (by rwa [startsWith_iff]), List.append_nil]⟩
    | @inScope a b rest' hat ha hb hr' =>
      have : rest' = [] := by simpa using hg
      subst this
      refine ⟨b, hb, ?_⟩
      rw [if_pos (by rw [startsWith_iff]; exact hat.trans (List.prefix_append ..)),
        splitFirst_append ha]
      simp
    | scope hat ha => exact absurd (hs hat) ha
  obtain ⟨last, hl, hc⟩ := hchars
  unfold exportsRequestOf
  rw [ht]
  simp only [hc, splitFirst_none.2 hl, hno, Bool.false_or, decide_eq_true_eq, if_neg hne]

/-- What exports do, in terms of the specification. -/
theorem exportsPlugin_mapped {c : Ctx} {pkg : Pkg} {info : Info} {name rest : Str}
    (hk : info.request.kind = .normal) (ht : info.request.target = name ++ rest)
    (hn : PackageName (name ++ rest) name) (hs : cs!"@" <+: name → '/' ∈ name)
    (hex : rest ≠ [] ∨ pkg.name = some name ∨ c.fs.pathExists (pjoin info.path name) = true)
    (ha : ExportsApply pkg (name ++ rest)) {out : Except Err (List Str)}
    (hm : Mapped c.opts pkg (exportsKey rest info.request.query info.request.fragment) out) :
    exportsPlugin c (some pkg) info = match out with
      | .error err => .ret (.error err info)
      | .ok l => match exportsPick c pkg.absDir l with
        | some i => .ret (.resolving i)
        | none => .ret (.error (.notExported (name ++ rest)) info) := by
  obtain ⟨tree, h1, h2⟩ := hm
  unfold exportsPlugin
  rw [← ht, ← exportsApply_iff] at ha
  simp only [hk, ne_eq, not_true_eq_false, if_false, ha, Bool.false_eq_true, h1,
    exportsRequestOf_spec ht hn hs hex, Prog.ret_bind, h2]
  cases out with
  | error e => rfl
  | ok l => simp only [ht]; rfl

theorem exportsPlugin_pass {c : Ctx} {pkg : Option Pkg} {info : Info}
    (h : ∀ p, pkg = some p → ExportsApply p info.request.target → p.exportsTree = none) :
    exportsPlugin c pkg info = .ret (.resolving info) := by
  unfold exportsPlugin
  cases pkg with
  | none => rfl
  | some pkg =>
    simp only
    split
    · rfl
    split
    · rfl
    · rename_i ha
      rw [Bool.not_eq_true, exportsApply_iff] at ha
      rw [h pkg rfl ha]

/-! ## One `node_modules` directory -/

/-- The request left when a file is found. -/
def doneRequest (query fragment : Str) : Request := ⟨[], query, fragment, .relative⟩

theorem withTarget_nil (r : Request) : r.withTarget [] = doneRequest r.query r.fragment := rfl

/-- What the lookup of a request comes to. -/
def HitStats (info : Info) : Option Hit → Stats → Prop
  | none, s => s = .resolving info
  | some (.file p query fragment), s => s = .success (.info ⟨p, doneRequest query fragment⟩)
  | some .ignored, s => s = .success .ignored
  | some (.fail e), s => e.isTag = false ∧ ∃ i, s = .error e i

/-- A leading `./` does not matter. -/
theorem sim_dotSlash {dir t : Str} (hd : isAbs dir = true) (ht : isAbs t = false) :
    Sim (pjoin dir t) (pjoin dir (cs!"./" ++ t)) := by
  have hne := abs_ne_nil hd
  have h' : isAbs (cs!"./" ++ t) = false := rfl
  refine ⟨?_, ?_⟩
  · rw [comps_pjoin hne ht, comps_pjoin hne h', body_comps_rel (isAbs_false ht),
      body_comps_rel (isAbs_false h')]
    rw [show cs!"./" ++ t = cs!"." ++ '/' :: t from rfl, splitC_append_sep]
    rfl
  · rw [lastSeg_pjoin hne ht, lastSeg_pjoin hne h', lastSeg, lastSeg,
      show cs!"./" ++ t = cs!"." ++ '/' :: t from rfl, splitC_append_sep, List.getLast?_append]
    cases hl : (splitC '/' t).getLast? with
    | none => exact absurd (List.getLast?_eq_none_iff.1 hl) (splitC_ne_nil _ _)
    | some x => rfl

theorem moduleStep_loaded {c : Ctx} {n : Nat} {d name : Str} {req : Request} {pkg : Option Pkg}
    (h : c.fs.isDir (pjoin d MODULE) = true) (hname : moduleName req.target = some name)
    (hl : c.load (pjoin (pjoin d MODULE) req.target) = .ret (.ok pkg)) :
    moduleStep c n ⟨d, req⟩ =
      if !c.fs.isDir (pjoin (pjoin d MODULE) name) && !selfOf pkg ⟨pjoin d MODULE, req⟩ then
        match resolveAsFile c ⟨pjoin d MODULE, req⟩ with
        | .success r => .ret (.success r, false)
        | _ => .ret (.resolving ⟨d, req⟩, false)
      else
        (modulePackageChain c n pkg ⟨pjoin d MODULE, req⟩).bind fun
        | .error err i =>
          if err.isTag then .ret (.resolving ⟨d, req⟩, false) else .ret (.error err i, false)
        | s => .ret (s, false) := by
  unfold moduleStep
  simp only [h, Bool.not_true, Bool.false_eq_true, if_false, hname, hl, Prog.ret_bind]
  rfl

/-- What is left to do for a path, in terms of the specification. -/
theorem place_run {c : Ctx} (hc : c.Sound) {d x : Str} {pkg : Option Pkg} (hd : isAbs d = true)
    (hl : c.load d = .ret (.ok pkg)) {info : Info}
    (hkind : info.request.kind = getTargetKind info.request.target) (hk : info.request.kind ≠ .normal)
    (hx : targetPath info.path info.request.target = x) (ha : isAbs x = true) :
    (Swap c.opts pkg x none → ∃ N, ∀ n, N ≤ n →
      ((aliasFieldPlugin c n pkg info).bind fun s =>
        (s.andThen fun i => .ret (resolveAsFile c i)).bind fun s =>
        s.andThen fun i => resolveAsDir c n i) = .ret (.success .ignored)) ∧
    ∀ y r, Swap c.opts pkg x (some y) → AtPath c.opts c.fs (fun d r => c.load d = .ret r) y r →
      ∃ (N : Nat) (i : Info), (∀ t, i.request.withTarget t = info.request.withTarget t) ∧ ∀ n, N ≤ n →
        ((aliasFieldPlugin c n pkg info).bind fun s =>
          (s.andThen fun i => .ret (resolveAsFile c i)).bind fun s =>
          s.andThen fun i => resolveAsDir c n i) = .ret (locStats i r) := by
  obtain ⟨h1, h2⟩ := swap_run hc hd hl hkind hk hx ha
  constructor
  · intro h
    obtain ⟨N, hN⟩ := h1 h
    exact ⟨N, fun n hn => by rw [hN n hn]; rfl⟩
  · intro y r h hf
    obtain ⟨hy, i, h3, h4, -, N, hN⟩ := h2 y h
    obtain ⟨M, hM⟩ := atPath_run hc hy hf
    refine ⟨N + M, i, h4, fun n hn => ?_⟩
    rw [hN n (by omega)]
    simp only [Prog.ret_bind, Stats.andThen_resolving]
    exact hM n (by omega) i h3

/-- What is done with a target of exports. -/
theorem modulePackageChain_mapped {c : Ctx} {n : Nat} {pkg : Option Pkg} {info i : Info}
    (he : exportsPlugin c pkg info = .ret (.resolving i)) (hh : ¬ cs!"#" <+: i.request.target) :
    modulePackageChain c (n + 1) pkg info =
      (aliasFieldPlugin c (n + 1) pkg (if i.request.kind = .normal then
        i.withTarget (cs!"./" ++ i.request.target) else i)).bind fun s =>
      (s.andThen fun i => .ret (resolveAsFile c i)).bind fun s =>
      s.andThen fun i => resolveAsDir c (n + 1) i := by
  unfold modulePackageChain
  simp only [he, Prog.ret_bind, Stats.andThen_resolving, importsPlugin_pass hh]

theorem fileCandidates_self {o : Opts} {fs : Fs} {p : Str} (h : o.enforceExtension ≠ some true)
    (hf : fs.isFile p = true) : FirstIn (fun p => fs.isFile p = true) (fileCandidates o p) p := by
  unfold fileCandidates
  rw [if_neg h, List.singleton_append]
  exact (firstIn_head (P := fun p => fs.isFile p = true) hf).2 rfl

theorem kind_normal_rel {t : Str} (h : getTargetKind t = .normal) : isAbs t = false := by
  cases ha : isAbs t with
  | false => rfl
  | true =>
    obtain ⟨r, rfl⟩ := (isAbs_iff t).1 ha
    cases h

/-- What a lookup in a package comes to. -/
theorem hit_of_loc {c : Ctx} (hc : c.Sound) {y : Str} {r : Loc} {info i : Info}
    (h : AtPath c.opts c.fs (fun d r => c.load d = .ret r) y r) :
    ∃ s, (match locStats i r with
      | .error err i =>
        if err.isTag then Prog.ret (Stats.resolving info, false) else .ret (.error err i, false)
      | s => .ret (s, false)) = .ret (s, false) ∧
      HitStats info (r.hit i.request.query i.request.fragment) s := by
  cases r with
  | got g => cases g <;> exact ⟨_, rfl, rfl⟩
  | missing => exact ⟨_, rfl, rfl⟩
  | broken e =>
    cases h with
    | broken _ _ hl =>
      have := hc.err _ _ hl
      refine ⟨.error e i, ?_, this, i, rfl⟩
      simp only [locStats, this, Bool.false_eq_true, if_false]

/-- The lookup in one `node_modules` directory follows the specification, with enough fuel. -/
theorem stepOut_run {c : Ctx} (hc : c.Sound)
    {req : Request} {name rest : Str} (hkind : getTargetKind req.target = req.kind)
    (hk : req.kind = .normal) (ht : req.target = name ++ rest)
    (htp : ∀ d, targetPath d (name ++ rest) = pjoin d (name ++ rest))
    (hascii : AsciiStr name ∨ rest = []) (hn : PackageName (name ++ rest) name)
    (hs : cs!"@" <+: name → '/' ∈ name) {d : Str} (hd : isAbs d = true) {r : Option Hit}
    (h : StepOut c.opts c.fs (fun d r => c.load d = .ret r) name rest req.query req.fragment d r) :
    ∃ N, ∀ n, N ≤ n → ∃ s b, moduleStep c n ⟨d, req⟩ = .ret (s, b) ∧ HitStats ⟨d, req⟩ r s ∧
      (r = none → b = false) := by
  have hname := moduleName_spec (hascii.imp_right fun h => by rw [h, List.append_nil]) hn
  have hroot : isAbs (pjoin d MODULE) = true := isAbs_pjoin_left _ hd
  have hload : isAbs (pjoin (pjoin d MODULE) (name ++ rest)) = true := isAbs_pjoin_left _ hroot
  have hexists : ∀ {pkg : Pkg}, Entered c.fs d name rest pkg →
      rest ≠ [] ∨ pkg.name = some name ∨ c.fs.pathExists (pjoin (pjoin d MODULE) name) = true := by
    rintro pkg (h | ⟨-, h⟩)
    · exact .inr (.inr (hc.lawful.dirExists _ (isAbs_pjoin_left _ hroot) h))
    · exact h
  have hhas : ∀ {pkg : Pkg}, Entered c.fs d name rest pkg → HasPackage c.fs d name (name ++ rest) (some pkg) :=
    fun h => h.imp_right And.left
  have hhash : ¬ cs!"#" <+: name ++ rest := by
    rw [← ht]
    intro h
    have hk' : getTargetKind req.target = .internal := by
      obtain ⟨r, hr⟩ := h
      rw [← hr]; rfl
    rw [hk', hk] at hkind
    cases hkind
  have hfile : targetPath (pjoin d MODULE) req.target = pjoin (pjoin d MODULE) (name ++ rest) := by
    rw [ht, htp]
  have hno : ∀ {pkg : Option Pkg}, ¬ HasPackage c.fs d name (name ++ rest) pkg →
      (!c.fs.isDir (pjoin (pjoin d MODULE) name) && !selfOf pkg ⟨pjoin d MODULE, req⟩) = true := by
    intro pkg ho
    unfold HasPackage at ho
    rw [← ht, ← ownName_iff _ ⟨pjoin d MODULE, req⟩, not_or, Bool.not_eq_true, Bool.not_eq_true] at ho
    rw [Bool.and_eq_true, Bool.not_eq_true', Bool.not_eq_true']
    exact ho
  have hyes : ∀ {pkg : Option Pkg}, HasPackage c.fs d name (name ++ rest) pkg →
      ¬ (!c.fs.isDir (pjoin (pjoin d MODULE) name) && !selfOf pkg ⟨pjoin d MODULE, req⟩) = true := by
    intro pkg ho
    unfold HasPackage at ho
    rw [← ht, ← ownName_iff _ ⟨pjoin d MODULE, req⟩] at ho
    rw [Bool.and_eq_true, Bool.not_eq_true', Bool.not_eq_true']
    rintro ⟨h1, h2⟩
    rcases ho with ho | ho
    · cases ho.symm.trans h1
    · rw [h2] at ho; cases ho
  -- a package without exports that count
  have plain : ∀ {pkg : Option Pkg}, c.fs.isDir (pjoin d MODULE) = true →
      c.load (pjoin (pjoin d MODULE) (name ++ rest)) = .ret (.ok pkg) →
      HasPackage c.fs d name (name ++ rest) pkg →
      (∀ p, pkg = some p → ExportsApply p (name ++ rest) → p.exportsTree = none) → ∀ n,
      moduleStep c (n + 1) ⟨d, req⟩ =
        ((aliasFieldPlugin c (n + 1) pkg ⟨pjoin d MODULE, req.withTarget (cs!"./" ++ (name ++ rest))⟩).bind fun s =>
          (s.andThen fun i => .ret (resolveAsFile c i)).bind fun s =>
          s.andThen fun i => resolveAsDir c (n + 1) i).bind fun
        | .error err i =>
          if err.isTag then .ret (.resolving ⟨d, req⟩, false) else .ret (.error err i, false)
        | s => .ret (s, false) := by
    intro pkg h hl hm hne n
    rw [moduleStep_loaded h (ht ▸ hname) (ht ▸ hl), if_neg (hyes hm),
      modulePackageChain_mapped (exportsPlugin_pass (ht ▸ hne)) (ht ▸ hhash), if_pos hk]
    simp only [ht]
    rfl
  have plainRun := fun {pkg : Option Pkg}
      (hl : c.load (pjoin (pjoin d MODULE) (name ++ rest)) = .ret (.ok pkg)) =>
    place_run (info := ⟨pjoin d MODULE, req.withTarget (cs!"./" ++ (name ++ rest))⟩) hc hload hl rfl
      (by nofun) (targetPath_dotSlash ..) (isAbs_pjoin_left _ hroot)
  -- a package with exports
  have mapped : ∀ {pkg : Pkg} {l : List Str} {t : Str}, c.fs.isDir (pjoin d MODULE) = true →
      c.load (pjoin (pjoin d MODULE) (name ++ rest)) = .ret (.ok (some pkg)) →
      Entered c.fs d name rest pkg → ExportsApply pkg (name ++ rest) →
      Mapped c.opts pkg (exportsKey rest req.query req.fragment) (.ok l) →
      FirstIn (Usable c.fs pkg.absDir) l t → ¬ cs!"#" <+: (parseRequest t).target → ∀ n,
      moduleStep c (n + 1) ⟨d, req⟩ =
        ((aliasFieldPlugin c (n + 1) (some pkg) (if (parseRequest t).kind = .normal then
            Info.withTarget ⟨pkg.absDir, parseRequest t⟩ (cs!"./" ++ (parseRequest t).target)
            else ⟨pkg.absDir, parseRequest t⟩)).bind fun s =>
          (s.andThen fun i => .ret (resolveAsFile c i)).bind fun s =>
          s.andThen fun i => resolveAsDir c (n + 1) i).bind fun
        | .error err i =>
          if err.isTag then .ret (.resolving ⟨d, req⟩, false) else .ret (.error err i, false)
        | s => .ret (s, false) := by
    intro pkg l t h hl hm ha hmap hf hnh n
    have hpick := exportsPick_first (c := c) hf
    have hplug := exportsPlugin_mapped (info := ⟨pjoin d MODULE, req⟩) hk ht hn hs (hexists hm) ha hmap
    simp only [hpick] at hplug
    rw [moduleStep_loaded h (ht ▸ hname) (ht ▸ hl), if_neg (hyes (hhas hm)),
      modulePackageChain_mapped hplug hnh]
  have mappedRun := fun {pkg : Pkg} (t : Str)
      (hl : c.load (pjoin (pjoin d MODULE) (name ++ rest)) = .ret (.ok (some pkg))) =>
    place_run (x := exportPath pkg.absDir (parseRequest t).target)
      (info := if (parseRequest t).kind = .normal then
            Info.withTarget ⟨pkg.absDir, parseRequest t⟩ (cs!"./" ++ (parseRequest t).target)
            else ⟨pkg.absDir, parseRequest t⟩) hc hload hl (by split <;> rfl)
      (by
        split
        · nofun
        · assumption)
      (by
        unfold exportPath
        rw [show getTargetKind (parseRequest t).target = (parseRequest t).kind from rfl]
        split
        · exact targetPath_dotSlash ..
        · rfl)
      (by
        unfold exportPath
        split
        · exact isAbs_pjoin_left _ (hc.abs _ _ hload hl)
        · exact targetPath_abs (hc.abs _ _ hload hl))
  cases h with
  | noModules h =>
    refine ⟨0, fun n _ => ⟨_, _, ?_, rfl, fun _ => rfl⟩⟩
    replace h : c.fs.isDir (pjoin d MODULE) = false := h
    unfold moduleStep
    rw [if_pos (by simpa using h)]
  | @broken e h hl =>
    refine ⟨0, fun n _ => ⟨.error e ⟨d, req⟩, true, ?_, ⟨hc.err _ _ hl, _, rfl⟩, nofun⟩⟩
    replace h : c.fs.isDir (pjoin d MODULE) = true := h
    replace hl : c.load (pjoin (pjoin d MODULE) (name ++ rest)) = _ := hl
    unfold moduleStep
    rw [if_neg (by simpa using h)]
    simp only [ht, hname, hl]
    rfl
  | @file pkg p h hl ho hf =>
    refine ⟨0, fun n _ => ⟨_, false, ?_, rfl, nofun⟩⟩
    rw [moduleStep_loaded h (ht ▸ hname) (ht ▸ hl), if_pos (hno ho), resolveAsFile_first (p := p)]
    · rfl
    · rw [hfile]; exact hf
  | @missing pkg h hl ho hf =>
    refine ⟨0, fun n _ => ⟨_, _, ?_, rfl, fun _ => rfl⟩⟩
    rw [moduleStep_loaded h (ht ▸ hname) (ht ▸ hl), if_pos (hno ho), resolveAsFile_none]
    rw [hfile]; exact hf
  | @mapped pkg l t y r h hl hm ha hmap hf hnh hsw hat =>
    obtain ⟨N, i, h4, hN⟩ := (mappedRun t hl).2 y r hsw hat
    obtain ⟨s, h5, h6⟩ := hit_of_loc (info := ⟨d, req⟩) (i := i) hc hat
    refine ⟨N + 1, fun n hn' => ⟨s, false, ?_, ?_, fun _ => rfl⟩⟩
    · obtain ⟨n, rfl⟩ : ∃ k, n = k + 1 := ⟨n - 1, by omega⟩
      rw [mapped h hl hm ha hmap hf hnh n, hN (n + 1) (by omega), Prog.ret_bind]
      exact h5
    · have e1 := congrArg Request.query (h4 [])
      have e2 := congrArg Request.fragment (h4 [])
      have e3 : ∀ i : Info, i = (if (parseRequest t).kind = .normal then
            Info.withTarget ⟨pkg.absDir, parseRequest t⟩ (cs!"./" ++ (parseRequest t).target)
            else ⟨pkg.absDir, parseRequest t⟩) → i.request.query = (parseRequest t).query ∧
            i.request.fragment = (parseRequest t).fragment := by
        rintro i rfl
        split <;> exact ⟨rfl, rfl⟩
      have e4 := e3 _ rfl
      rw [show i.request.query = (parseRequest t).query from Eq.trans e1 e4.1,
        show i.request.fragment = (parseRequest t).fragment from Eq.trans e2 e4.2] at h6
      exact h6
  | @mappedDropped pkg l t h hl hm ha hmap hf hnh hsw =>
    obtain ⟨N, hN⟩ := (mappedRun t hl).1 hsw
    refine ⟨N + 1, fun n hn' => ⟨_, false, ?_, rfl, nofun⟩⟩
    obtain ⟨n, rfl⟩ : ∃ k, n = k + 1 := ⟨n - 1, by omega⟩
    rw [mapped h hl hm ha hmap hf hnh n, hN (n + 1) (by omega)]
    rfl
  | @notExported pkg l h hl hm ha hmap hf =>
    have hplug := exportsPlugin_mapped (info := ⟨pjoin d MODULE, req⟩) hk ht hn hs (hexists hm) ha hmap
    simp only [exportsPick_none (c := c) hf] at hplug
    refine ⟨0, fun n _ => ⟨.error (.notExported (name ++ rest)) ⟨pjoin d MODULE, req⟩, false, ?_,
      ⟨rfl, _, rfl⟩, nofun⟩⟩
    rw [moduleStep_loaded h (ht ▸ hname) (ht ▸ hl), if_neg (hyes (hhas hm))]
    unfold modulePackageChain
    simp only [hplug, Prog.ret_bind, Stats.andThen]
    rfl
  | @exportsError pkg e h hl hm ha hmap =>
    have hplug := exportsPlugin_mapped (info := ⟨pjoin d MODULE, req⟩) hk ht hn hs (hexists hm) ha hmap
    have he : e.isTag = false := by
      obtain ⟨tree, -, h⟩ := hmap
      have := fieldProcess_err h
      cases e <;> first | rfl | cases this
    refine ⟨0, fun n _ => ⟨.error e ⟨pjoin d MODULE, req⟩, false, ?_, ⟨he, _, rfl⟩, nofun⟩⟩
    rw [moduleStep_loaded h (ht ▸ hname) (ht ▸ hl), if_neg (hyes (hhas hm))]
    unfold modulePackageChain
    simp only [hplug, Prog.ret_bind, Stats.andThen, he, Bool.false_eq_true, if_false]
  | @otherName pkg h hl hm hr hne het hnot =>
    subst hr
    obtain ⟨tree, htree⟩ := Option.ne_none_iff_exists'.1 het
    have hm' : OwnName (some pkg) (name ++ []) := by rw [List.append_nil]; exact hm
    have hplug : exportsPlugin c (some pkg) ⟨pjoin d MODULE, req⟩ =
        .ret (.error .tag ⟨pjoin d MODULE, req⟩) := by
      have ha : ExportsApply pkg (name ++ []) := by
        obtain ⟨p, n, h1, h2, h3⟩ := hm'
        cases h1
        exact .inr ⟨n, h2, h3⟩
      rw [← ht] at ha
      rw [← exportsApply_iff pkg ⟨pjoin d MODULE, req⟩] at ha
      have hreq : exportsRequestOf c pkg ⟨pjoin d MODULE, req⟩ = .ret none :=
        exportsRequestOf_none (name := name) (by rw [ht, List.append_nil])
          (by rw [List.append_nil] at hn; exact hn) hs hnot hne
      unfold exportsPlugin
      simp only [hk, ne_eq, not_true_eq_false, if_false, ha, Bool.false_eq_true, htree, hreq, Prog.ret_bind]
    refine ⟨0, fun n _ => ⟨_, false, ?_, rfl, fun _ => rfl⟩⟩
    rw [moduleStep_loaded h (ht ▸ hname) (ht ▸ hl), if_neg (hyes (.inr hm'))]
    unfold modulePackageChain
    simp only [hplug, Prog.ret_bind, Stats.andThen]
    rfl
  | @plain pkg y r h hl hm hne hsw hat =>
    obtain ⟨N, i, h4, hN⟩ := (plainRun hl).2 y r hsw hat
    obtain ⟨s, h5, h6⟩ := hit_of_loc (info := ⟨d, req⟩) (i := i) hc hat
    refine ⟨N + 1, fun n hn' => ⟨s, false, ?_, ?_, fun _ => rfl⟩⟩
    · obtain ⟨n, rfl⟩ : ∃ k, n = k + 1 := ⟨n - 1, by omega⟩
      rw [plain h hl hm hne n, hN (n + 1) (by omega), Prog.ret_bind]
      exact h5
    · have e1 := congrArg Request.query (h4 [])
      have e2 := congrArg Request.fragment (h4 [])
      rw [show i.request.query = req.query from e1, show i.request.fragment = req.fragment from e2] at h6
      exact h6
  | @plainDropped pkg h hl hm hne hsw =>
    obtain ⟨N, hN⟩ := (plainRun hl).1 hsw
    refine ⟨N + 1, fun n hn' => ⟨_, false, ?_, rfl, nofun⟩⟩
    obtain ⟨n, rfl⟩ : ∃ k, n = k + 1 := ⟨n - 1, by omega⟩
    rw [plain h hl hm hne n, hN (n + 1) (by omega)]
    rfl

/-! ## All directories -/

/-- What the whole search comes to. -/
def SearchStats (path : Str) (req : Request) : Option Hit → Stats → Prop
  | none, s => ∃ i, s = .error .tag i
  | some h, s => HitStats ⟨path, req⟩ (some h) s

/-- The search through the `node_modules` directories follows the specification, with enough
fuel. -/
theorem searchOut_run {c : Ctx} (hc : c.Sound)
    {req : Request} {name rest : Str} (hkind : getTargetKind req.target = req.kind)
    (hk : req.kind = .normal) (ht : req.target = name ++ rest)
    (hascii : AsciiStr name ∨ rest = []) (hn : PackageName (name ++ rest) name)
    (hs : cs!"@" <+: name → '/' ∈ name) {path : Str} {dirs : List Str} (hd : isAbs path = true)
    (hdirs : Ancestors path dirs) {r : Option Hit}
    (h : SearchOut c.opts c.fs (fun d r => c.load d = .ret r) name rest req.query req.fragment
      dirs r) :
    ∃ N, ∀ n, N ≤ n → ∃ s, resolveAsModules c n ⟨path, req⟩ = .ret s ∧
      SearchStats path req r s := by
  have htp : ∀ d, targetPath d (name ++ rest) = pjoin d (name ++ rest) :=
    targetPath_bare (by rw [← ht, hkind, hk])
  have hit : ∀ {d : Str}, isAbs d = true → ∀ {hit : Hit},
      StepOut c.opts c.fs (fun d r => c.load d = .ret r) name rest req.query req.fragment d
        (some hit) →
      ∃ N, ∀ n, N ≤ n → ∃ s, resolveAsModules c n ⟨d, req⟩ = .ret s ∧
        HitStats ⟨d, req⟩ (some hit) s := by
    intro d hd hit h
    obtain ⟨N, hN⟩ := stepOut_run hc hkind hk ht htp hascii hn hs hd h
    refine ⟨N + 1, fun n hn => ?_⟩
    obtain ⟨n, rfl⟩ : ∃ k, n = k + 1 := ⟨n - 1, by omega⟩
    obtain ⟨s, b, h1, h2, -⟩ := hN n (by omega)
    refine ⟨s, ?_, h2⟩
    unfold resolveAsModules
    rw [h1]
    cases hit with
    | file p q f =>
      cases (h2 : s = _)
      cases b <;> rfl
    | ignored =>
      cases (h2 : s = _)
      cases b <;> rfl
    | fail e =>
      obtain ⟨-, i, rfl⟩ := h2
      cases b <;> rfl
  have next : ∀ {d : Str}, isAbs d = true →
      StepOut c.opts c.fs (fun d r => c.load d = .ret r) name rest req.query req.fragment d none →
      ∃ N, ∀ n, N ≤ n → resolveAsModules c (n + 1) ⟨d, req⟩ = (match pparent d with
        | some parent => resolveAsModules c n ⟨parent, req⟩
        | none => .ret (.resolving ⟨d, req⟩)).bind fun
        | .resolving i => .ret (.error .tag i)
        | s => .ret s := by
    intro d hd h
    obtain ⟨N, hN⟩ := stepOut_run hc hkind hk ht htp hascii hn hs hd h
    refine ⟨N, fun n hn => ?_⟩
    obtain ⟨s, b, h1, h2, h3⟩ := hN n hn
    cases (h2 : s = _)
    cases h3 rfl
    rw [resolveAsModules, h1]
    rfl
  induction hdirs with
  | @top d hp =>
    cases h with
    | hit h => exact hit hd h
    | next h h' =>
      cases h'
      obtain ⟨N, hN⟩ := next hd h
      refine ⟨N + 1, fun n hn => ?_⟩
      obtain ⟨n, rfl⟩ : ∃ k, n = k + 1 := ⟨n - 1, by omega⟩
      rw [hN n (by omega), hp]
      exact ⟨_, rfl, _, rfl⟩
  | @up d d' l hp hl ih =>
    cases h with
    | hit h => exact hit hd h
    | next h h' =>
      obtain ⟨N, hN⟩ := next hd h
      obtain ⟨M, hM⟩ := ih (by rw [isAbs_pparent hp, hd]) h'
      refine ⟨N + M + 1, fun n hn => ?_⟩
      obtain ⟨n, rfl⟩ : ∃ k, n = k + 1 := ⟨n - 1, by omega⟩
      rw [hN n (by omega), hp]
      obtain ⟨s, h1, h2⟩ := hM n (by omega)
      simp only [h1, Prog.ret_bind]
      match r, h2 with
      | none, ⟨i, hi⟩ => subst hi; exact ⟨_, rfl, _, rfl⟩
      | some (.file p q f), h2 =>
        cases (h2 : s = _)
        exact ⟨_, rfl, rfl⟩
      | some .ignored, h2 =>
        cases (h2 : s = _)
        exact ⟨_, rfl, rfl⟩
      | some (.fail e), h2 =>
        obtain ⟨h3, i, rfl⟩ := h2
        exact ⟨_, rfl, h3, i, rfl⟩

/-! ## From the file system to every history -/

theorem withTree_error {α : Type} {k : FieldKind} {v : Option Json}
    {next : Option Node → Prog (Except Err α)} {e : Err}
    (h : withTree k v next = .ret (.error e)) : e.isTag = false ∨ ∃ t, next t = .ret (.error e) := by
  unfold withTree at h
  split at h
  · exact .inr ⟨_, h⟩
  · split at h
    · cases h
    · rename_i he
      cases h
      exact .inl (buildTree_err_tag he).2
    · exact .inr ⟨_, h⟩

theorem parseSideEffects_error {p : Str} {json : Json} {e : Err}
    (h : parseSideEffects p json = .error e) : e.isTag = false := by
  have hloop : ∀ l e, sideEffectsLoop p l = .error e → e.isTag = false := by
    intro l
    induction l with
    | nil => intro e h; cases h
    | cons x l ih =>
      intro e h
      unfold sideEffectsLoop at h
      split at h
      · cases h; rfl
      · split at h
        · rename_i he; cases h; exact ih _ he
        · cases h
  unfold parseSideEffects at h
  split at h
  · cases h
  · split at h
    · cases h
    · split at h
      · cases h; rfl
      · split at h
        · rename_i he; cases h; exact hloop _ _ he
        · cases h

theorem readPkg_error {fs : Fs} {d file : Str} {e : Err} (h : readPkg fs d file = .ret (.error e)) :
    e.isTag = false := by
  unfold readPkg at h
  split at h
  · split at h
    · cases h; rfl
    · split at h
      · cases h
      · rcases withTree_error h with h | ⟨_, h⟩
        · exact h
        rcases withTree_error h with h | ⟨_, h⟩
        · exact h
        split at h
        · rename_i he; cases h; exact parseSideEffects_error he
        · cases h
  · cases h; rfl

theorem loads_error {o : Opts} {fs : Fs} {p : Str} {e : Err} (h : Loads o fs p (.error e)) :
    e.isTag = false := by
  unfold Loads findPkg at h
  split at h
  · cases h
  split at h
  · cases h
  · rename_i d _
    rcases readPkg_cases fs d (pjoin d _) with ⟨a, ha⟩ | ⟨s, hs⟩
    · rw [ha] at h
      cases a with
      | error e' => cases h; exact readPkg_error ha
      | ok pkg => cases h
    · rw [hs] at h; cases h

theorem loads_abs {o : Opts} {fs : Fs} {p : Str} {pkg : Pkg} (h : Loads o fs p (.ok (some pkg)))
    (ha : isAbs p = true) : isAbs pkg.absDir = true := by
  unfold Loads at h
  cases hd : o.descriptionFile with
  | none => rw [hd] at h; cases h
  | some desc =>
    rw [hd] at h
    obtain ⟨d, -, h2, h3⟩ := findPkg_found ha (by rw [h]; exact .ret _)
    rw [readPkg_dir h3]
    exact h2

/-- The package found has the entries of its file. -/
theorem loads_fields {o : Opts} {fs : Fs} {p : Str} {pkg : Pkg} (h : Loads o fs p (.ok (some pkg)))
    (ha : isAbs p = true) : browserFields pkg.raw = some pkg.aliasFields ∧
      ∃ desc doc, o.descriptionFile = some desc ∧ isAbs pkg.absDir = true ∧
        fs.read (pjoin pkg.absDir desc) = some doc ∧ doc.json = some pkg.raw := by
  unfold Loads at h
  cases hd : o.descriptionFile with
  | none => rw [hd] at h; cases h
  | some desc =>
    rw [hd] at h
    obtain ⟨d, -, h2, h3⟩ := findPkg_found ha (by rw [h]; exact .ret _)
    obtain ⟨doc, json, h4, h5, h6, h7⟩ := readPkg_fields h3
    have := readPkg_dir h3
    subst h7
    rw [this]
    exact ⟨h6, desc, doc, rfl, h2, h4, h5⟩

theorem closest_own {fs : Fs} {desc p d : Str} (h : closest fs desc p = some d) :
    (comps d).length < (comps p).length ∨ d = p := by
  induction hn : p.length using Nat.strongRecOn generalizing p with
  | ind n ih =>
    subst hn
    rw [closest_step] at h
    split at h
    · cases h; exact .inr rfl
    · cases hp : pparent p with
      | none => rw [hp] at h; cases h
      | some q =>
        rw [hp] at h
        have hne : comps p ≠ [] := by
          intro e
          have := pparent_eq_none (p := p)
          rw [hp] at this
          cases this.2 (.inl e)
        have hc := comps_pparent hp
        have hlt : (comps q).length < (comps p).length := by
          rw [hc, List.length_dropLast]
          have := List.length_pos_iff.2 hne
          omega
        rcases ih q.length (pparent_length hp) h rfl with h1 | rfl
        · exact .inl (by omega)
        · exact .inl hlt

/-- The resolver without caches is as demanded. -/
theorem sound_pure {cfg : Nat → Config} {ser : Json → Str} {fs : Fs} (hs : Static cfg ser fs)
    (rid : Nat) : (pureCtx (cfg rid).opts fs false).Sound where
  lawful := hs.lawful
  err _ _ h := loads_error h
  abs _ _ ha h := loads_abs h ha
  own d pkg ha h hc := by
    replace h : findPkg fs (cfg rid).opts.descriptionFile d = _ := h
    cases hd : (cfg rid).opts.descriptionFile with
    | none => rw [hd] at h; cases h
    | some desc =>
      rw [hd] at h
      obtain ⟨d', h1, h2, h3⟩ := findPkg_found ha (by rw [h]; exact .ret _)
      rw [readPkg_dir h3] at hc ⊢
      rcases closest_own h1 with h4 | h4
      · rw [hc] at h4; omega
      · exact h4
  fields _ _ ha h := (loads_fields h ha).1
  only hb d pkg ha h x k v k' v' hx hk hk' hc hc' := by
    obtain ⟨hf, desc, doc, hd, habs, hr, hj⟩ := loads_fields h ha
    exact (hs.browser rid desc hb hd _ _ _ _ habs hr hj hf).1 _ _ _ _ _ hx hk hk' hc hc'

theorem finalPath_sim {o : Opts} {fs : Fs} (hl : fs.Lawful) {p p' q : Str}
    (h : p' = p ∨ isAbs p = true ∧ Sim p p') (hf : FinalPath o fs p q) : FinalPath o fs p' q := by
  rcases h with rfl | ⟨ha, h⟩
  · exact hf
  cases hf with
  | lexical hs => rw [normalizeLex_comps h.1]; exact .lexical hs
  | canonical hs hc => exact .canonical hs (by rw [← hl.canon _ _ ha h]; exact hc)

theorem finalAnswer {c : Ctx} (hd : c.debug = false) (hl : c.fs.Lawful) {info : Info} {p p' query fragment : Str}
    (h : p' = p ∨ isAbs p = true ∧ Sim p p') :
    ∃ a, FileAnswer c.opts c.fs p query fragment a ∧
      answer c info (.success (.info ⟨p', doneRequest query fragment⟩)) = .ret a := by
  cases hs : c.opts.symlinks with
  | false =>
    have hq : FinalPath c.opts c.fs p (normalizeLex p) := .lexical hs
    exact ⟨_, .path hq, answer_success hd (finalPath_sim hl h hq)⟩
  | true =>
    cases hc : c.fs.canon p with
    | some q =>
      have hq : FinalPath c.opts c.fs p q := .canonical hs hc
      exact ⟨_, .path hq, answer_success hd (finalPath_sim hl h hq)⟩
    | none =>
      refine ⟨_, .noPath hs hc, ?_⟩
      have hc' : c.fs.canon p' = none := by
        rcases h with rfl | ⟨ha, h⟩
        · exact hc
        · rw [← hl.canon _ _ ha h]; exact hc
      simp only [answer, normalizeResult, hd, Bool.false_and, Bool.false_eq_true, if_false,
        normalizePath, hs, hc', if_true]

variable {cfg : Nat → Config} {ser : Json → Str} {fs : Fs}

/-- The package stage of a bare request to which nothing applies. -/
theorem pkgStage_ok {c : Ctx} {n : Nat} {info : Info} {pkg : Option Pkg}
    (hk : info.request.kind = .normal) (hnk : NotKeyed c.opts pkg info.request.target)
    (hh : ¬ cs!"#" <+: info.request.target)
    (hl : c.load (pjoin (pjoin info.path MODULE) info.request.target) = .ret (.ok pkg)) :
    pkgStage c (n + 1) info = .ret (.resolving info) := by
  unfold pkgStage
  simp only [hk, if_true, hl, Prog.ret_bind, importsPlugin_pass hh, Stats.andThen_resolving,
    aliasFieldPlugin_notKeyed hk hnk]

theorem pkgStage_error {c : Ctx} {n : Nat} {info : Info} {e : Err}
    (hl : c.load (if info.request.kind = .normal then
      pjoin (pjoin info.path MODULE) info.request.target else info.getPath) = .ret (.error e)) :
    pkgStage c n info = .ret (.error e info) := by
  unfold pkgStage
  simp only [hl, Prog.ret_bind]

/-- A bare request comes to what the specification says. -/
theorem bare_yields (hs : Static cfg ser fs) {rid : Nat} {path request name rest : Str}
    {dirs : List Str} {r : Option Hit}
    (hp : Plain (cfg rid).opts path (parseRequest request).target)
    (ha : isAbs path = true)
    (hk : getTargetKind (parseRequest request).target = .normal)
    (ht : (parseRequest request).target = name ++ rest)
    (hascii : AsciiStr name ∨ rest = []) (hn : PackageName (name ++ rest) name)
    (hscope : cs!"@" <+: name → '/' ∈ name) (hdirs : Ancestors path dirs)
    (h : BareOut (cfg rid).opts fs (Loads (cfg rid).opts fs) name rest (parseRequest request).query
      (parseRequest request).fragment path dirs r) :
    HitYields cfg ser fs rid path request r := by
  have hdisp : (parseRequest request).display = request := (parse_isSplit request).concat.symm
  have hplain := fun n => resolveCtx_plain (pureCtx (cfg rid).opts fs false) n path request hp.tsconfig
    (hp.alias.imp_left (containsStr_iff _ _).2) hp.prefer
  have hhash : ¬ cs!"#" <+: (parseRequest request).target := by
    rintro ⟨r, hr⟩
    rw [← hr] at hk
    cases hk
  cases h with
  | @broken e hl =>
    rw [← ht] at hl
    have he := loads_error hl
    refine yields_of_pure hs (N := 1) ?_
    rw [hplain]
    unfold plainStages
    rw [pkgStage_error (e := e) (by rw [if_pos (show (parseRequest request).kind = .normal from hk)]; exact hl)]
    simp only [Prog.ret_bind, Stats.andThen, answer, he, Bool.false_eq_true, if_false]
  | @search pkg _ hl hnk h =>
    rw [← ht] at hl hnk
    obtain ⟨N, hN⟩ := searchOut_run (c := pureCtx (cfg rid).opts fs false) (req := parseRequest request)
      (sound_pure hs rid) rfl hk ht hascii hn hscope ha hdirs h
    obtain ⟨s, h1, h2⟩ := hN (N + 1) (by omega)
    have hstages : resolveCtx (pureCtx (cfg rid).opts fs false) (N + 2) path request =
        answer (pureCtx (cfg rid).opts fs false) ⟨path, parseRequest request⟩ s := by
      rw [hplain]
      unfold plainStages
      rw [pkgStage_ok (c := pureCtx (cfg rid).opts fs false) (info := ⟨path, parseRequest request⟩)
        (pkg := pkg) hk hnk hhash hl]
      simp only [Prog.ret_bind, Stats.andThen_resolving]
      have : lastStage (pureCtx (cfg rid).opts fs false) (N + 1) ⟨path, parseRequest request⟩ =
          resolveAsModules (pureCtx (cfg rid).opts fs false) (N + 1) ⟨path, parseRequest request⟩ := by
        unfold lastStage
        simp only [show (parseRequest request).kind = .normal from hk]
      rw [this, h1]
      rfl
    match r, h2 with
    | none, ⟨i, hi⟩ =>
      subst hi
      refine yields_of_pure hs (hstages.trans ?_)
      simp only [answer, Err.isTag, if_true, failedMessage, hdisp]
    | some (.file p q f), h2 =>
      cases (h2 : s = _)
      obtain ⟨a, ha, hans⟩ := finalAnswer (c := pureCtx (cfg rid).opts fs false) rfl hs.lawful (.inl rfl)
      exact ⟨a, ha, yields_of_pure hs (hstages.trans hans)⟩
    | some .ignored, h2 =>
      cases (h2 : s = _)
      exact yields_of_pure hs hstages
    | some (.fail e), ⟨h3, i, hi⟩ =>
      subst hi
      refine yields_of_pure hs (hstages.trans ?_)
      simp only [answer, h3, Bool.false_eq_true, if_false]

/-! ## Paths -/

theorem isPath_kind {request : Str} (h : IsPath (parseRequest request).target) :
    (parseRequest request).kind ≠ .normal ∧
    ∀ c n path, lastStage c n ⟨path, parseRequest request⟩ =
      (resolveAsFile c ⟨path, parseRequest request⟩).andThen fun i => resolveAsDir c n i := by
  have hk : (parseRequest request).kind = getTargetKind (parseRequest request).target := rfl
  unfold lastStage
  simp only [hk]
  rcases h with h | h | h <;> simp [h]

/-- The stages of a request that is a path to which nothing applies. -/
theorem path_stages {c : Ctx} {n : Nat} {path request : Str} {pkg : Option Pkg}
    (hp : Plain c.opts path (parseRequest request).target)
    (hk : IsPath (parseRequest request).target)
    (hl : c.load (targetPath path (parseRequest request).target) = .ret (.ok pkg))
    (hn : NotCovered c.opts pkg (targetPath path (parseRequest request).target)) :
    resolveCtx c (n + 2) path request =
      ((resolveAsFile c ⟨path, parseRequest request⟩).andThen fun i => resolveAsDir c (n + 1) i).bind
        (answer c ⟨path, parseRequest request⟩) := by
  rw [resolveCtx_plain c (n + 1) path request hp.tsconfig
    (hp.alias.imp_left (containsStr_iff _ _).2) hp.prefer]
  have hh := not_hash_of_kind hk
  unfold plainStages pkgStage
  simp only [(isPath_kind hk).1, if_false, getPath_eq, hl, Prog.ret_bind]
  rw [importsPlugin_pass hh]
  simp only [Prog.ret_bind, Stats.andThen_resolving]
  rw [aliasFieldPlugin_notCovered (isPath_kind hk).1 hn]
  simp only [Prog.ret_bind, Stats.andThen_resolving]
  rw [(isPath_kind hk).2]

theorem lastStage_path {c : Ctx} {n : Nat} {info : Info}
    (hk : info.request.kind = getTargetKind info.request.target) (h : IsPath info.request.target) :
    lastStage c n info = (resolveAsFile c info).andThen fun i => resolveAsDir c n i := by
  unfold lastStage
  rw [hk]
  rcases h with h | h | h <;> simp [h]

/-- What is found at a place is what the call comes to. -/
theorem loc_yields (hs : Static cfg ser fs) {rid : Nat} {path request y : Str} {r : Loc} {i : Info}
    (hq : i.request.query = (parseRequest request).query)
    (hf : i.request.fragment = (parseRequest request).fragment) {N : Nat}
    (h : AtPath (cfg rid).opts fs (Loads (cfg rid).opts fs) y r)
    (hr : resolveCtx (pureCtx (cfg rid).opts fs false) N path request =
      answer (pureCtx (cfg rid).opts fs false) ⟨path, parseRequest request⟩ (locStats i r)) :
    HitYields cfg ser fs rid path request
      (r.hit (parseRequest request).query (parseRequest request).fragment) := by
  have hdisp : (parseRequest request).display = request := (parse_isSplit request).concat.symm
  cases r with
  | got g =>
    cases g with
    | file p =>
      obtain ⟨a, ha, hans⟩ := finalAnswer (c := pureCtx (cfg rid).opts fs false)
        (info := ⟨path, parseRequest request⟩) (p := p)
        (query := (parseRequest request).query) (fragment := (parseRequest request).fragment)
        rfl hs.lawful (.inl rfl)
      refine ⟨a, ha, yields_of_pure hs (hr.trans (Eq.trans ?_ hans))⟩
      rw [← hq, ← hf]
      rfl
    | ignored => exact yields_of_pure hs hr
  | missing =>
    refine yields_of_pure hs (hr.trans ?_)
    simp only [locStats, answer, Err.isTag, if_true, failedMessage, hdisp]
  | broken e =>
    cases h with
    | broken _ _ hl =>
      refine yields_of_pure hs (hr.trans ?_)
      simp only [locStats, answer, loads_error hl, Bool.false_eq_true, if_false]

/-- A path comes to what the specification says. -/
theorem path_yields (hs : Static cfg ser fs) {rid : Nat} {path request : Str} {r : Option Hit}
    (hp : Plain (cfg rid).opts path (parseRequest request).target) (ha : isAbs path = true)
    (hk : IsPath (parseRequest request).target)
    (h : PathOut (cfg rid).opts fs (Loads (cfg rid).opts fs) (parseRequest request).query
      (parseRequest request).fragment (targetPath path (parseRequest request).target) r) :
    HitYields cfg ser fs rid path request r := by
  have hc := sound_pure hs rid
  have hx : isAbs (targetPath path (parseRequest request).target) = true := targetPath_abs ha
  have hstage : ∀ n, resolveCtx (pureCtx (cfg rid).opts fs false) (n + 1) path request = _ :=
    fun n => resolveCtx_plain (pureCtx (cfg rid).opts fs false) n path request hp.tsconfig
      (hp.alias.imp_left (containsStr_iff _ _).2) hp.prefer
  have hh := not_hash_of_kind hk
  cases h with
  | @broken e hl =>
    have he := loads_error hl
    refine yields_of_pure hs (N := 1) ?_
    rw [hstage 0]
    unfold plainStages
    rw [pkgStage_error (e := e) (by rw [if_neg (isPath_kind hk).1, getPath_eq]; exact hl)]
    simp only [Prog.ret_bind, Stats.andThen, answer, he, Bool.false_eq_true, if_false]
  | @here pkg r hl hcov hf =>
    obtain ⟨N, hN⟩ := atPath_run hc hx hf
    refine loc_yields hs (i := ⟨path, parseRequest request⟩) rfl rfl (N := N + 2) hf ?_
    rw [path_stages (c := pureCtx (cfg rid).opts fs false) hp hk hl hcov, hN (N + 1) (by omega) _ rfl]
    rfl
  | @moved pkg t r hl hrep hpt hf =>
    have hpk : isAbs pkg.absDir = true := loads_abs hl hx
    obtain ⟨N, hN⟩ := atPath_run hc (targetPath_abs hpk) hf
    obtain ⟨M, hM⟩ := replaced_run_all hc hx hl hx hrep
    refine loc_yields hs (i := ⟨pkg.absDir, (parseRequest request).withTarget t⟩) rfl rfl
      (N := N + M + 2) hf ?_
    rw [hstage (N + M + 1)]
    unfold plainStages pkgStage
    have hload : (pureCtx (cfg rid).opts fs false).load
        (if (parseRequest request).kind = .normal then
          pjoin (pjoin path MODULE) (parseRequest request).target
        else (Info.getPath ⟨path, parseRequest request⟩)) = .ret (.ok (some pkg)) := by
      rw [if_neg (isPath_kind hk).1, getPath_eq]
      exact hl
    simp only [hload, Prog.ret_bind]
    rw [importsPlugin_pass hh]
    simp only [Prog.ret_bind, Stats.andThen_resolving]
    rw [hM (N + M + 1) (by omega) ⟨path, parseRequest request⟩ rfl (isPath_kind hk).1 rfl]
    simp only [replaced, Prog.ret_bind, Stats.andThen_resolving]
    rw [lastStage_path rfl hpt, hN (N + M + 1) (by omega) _ rfl]
    rfl
  | @dropped pkg hl hrep =>
    obtain ⟨M, hM⟩ := replaced_run_all hc hx hl hx hrep
    refine yields_of_pure hs (N := M + 2) ?_
    rw [hstage (M + 1)]
    unfold plainStages pkgStage
    have hload : (pureCtx (cfg rid).opts fs false).load
        (if (parseRequest request).kind = .normal then
          pjoin (pjoin path MODULE) (parseRequest request).target
        else (Info.getPath ⟨path, parseRequest request⟩)) = .ret (.ok (some pkg)) := by
      rw [if_neg (isPath_kind hk).1, getPath_eq]
      exact hl
    simp only [hload, Prog.ret_bind]
    rw [importsPlugin_pass hh]
    simp only [Prog.ret_bind, Stats.andThen_resolving]
    rw [hM (M + 1) (by omega) ⟨path, parseRequest request⟩ rfl (isPath_kind hk).1 rfl]
    rfl

/-- A path to a directory that does not resolve makes the call panic. -/
theorem path_panics (hs : Static cfg ser fs) {rid : Nat} {path request : Str} {pkg : Option Pkg}
    (hp : Plain (cfg rid).opts path (parseRequest request).target) (ha : isAbs path = true)
    (hk : IsPath (parseRequest request).target)
    (hl : Loads (cfg rid).opts fs (targetPath path (parseRequest request).target) (.ok pkg))
    (hn : NotCovered (cfg rid).opts pkg (targetPath path (parseRequest request).target))
    (hf : ∀ p ∈ fileCandidates (cfg rid).opts (targetPath path (parseRequest request).target),
      fs.isFile p = false)
    (hd : fs.isDir (targetPath path (parseRequest request).target) = true)
    (ho : DirOut (cfg rid).opts fs (Loads (cfg rid).opts fs)
      (targetPath path (parseRequest request).target) none) :
    Panics cfg ser fs rid path request .resolveUnreachable := by
  obtain ⟨N, hN⟩ := dirOut_run (sound_pure hs rid) ho (targetPath_abs ha)
  refine panics_of_pure hs (N := N + 2) ?_
  rw [path_stages (c := pureCtx (cfg rid).opts fs false) hp hk hl hn, resolveAsFile_none hf,
    Stats.andThen_resolving, hN (N + 1) (by omega) _ rfl hd]
  rfl

end Verif
