import Verif.Props.Current
import Verif.Props.Amid
import Verif.Proofs.FileAdded
/-!
# C96: files and packages come and go while description files stay as they are
-/

namespace Verif.Live

variable {cfg : Nat → Config} {fs fs1 : Fs}

/-- C96: any history, in which calls of all resolvers start at any time, run at the same time, and files come and go at
any moment, also in the middle of calls. If the description files keep their places and contents, and their times do
not go back, then a call that has seen the files `fs1` ends as in a fresh resolver on `fs1`, whatever the delay is. New
description files may come, and be malformed for a while, and they may go together with their directories. -/
theorem C96_kept (hs : Static cfg serJson fs1) {l : List Event} {i : Nat} {t : Task}
    (ht : ((Sys.init fs).after cfg serJson l).tasks[i]? = some t) (hc : t.call.abs)
    (hlook : ∀ q r, Looked cfg serJson fs l i q r → q.answer fs1 = r)
    (hkept : ∀ desc, (cfg t.rid).opts.descriptionFile = some desc → Kept (Versions fs l) fs1 desc)
    (hplace : ∀ desc, (cfg t.rid).opts.descriptionFile = some desc → InPlace (Versions fs l) fs1 desc)
    (hmix : NeverMix (Versions fs l) fs1) {x : Outcome Answer} (hx : outcome t.prog = some x) :
    (∃ seeds, x.Like Answer.Sim ((t.call.prog ((cfg t.rid).env serJson fs1) t.fuel).run (World.init seeds)).1) ∧
    (TsClear (cfg t.rid).opts fs1 t.call → ∀ seeds,
      x.Like Answer.Sim ((t.call.prog ((cfg t.rid).env serJson fs1) t.fuel).run (World.init seeds)).1) :=
  current_of hs ht hc hlook (.inr hkept) hplace hmix hx

/-- C96, for calls that start after all changes: `l` is any history, in which description files keep their places and
contents, the call starts after it, and from then on files do not change. -/
theorem C96_after {l l2 : List Event} {rid fuel : Nat} {call : Call}
    (hs : Static cfg serJson ((Sys.init fs).after cfg serJson l).fs) (hl2 : ∀ f, .change f ∉ l2) (hc : call.abs)
    (hkept : ∀ desc, (cfg rid).opts.descriptionFile = some desc →
      Kept (Versions fs l) ((Sys.init fs).after cfg serJson l).fs desc)
    (hplace : ∀ desc, (cfg rid).opts.descriptionFile = some desc →
      InPlace (Versions fs l) ((Sys.init fs).after cfg serJson l).fs desc)
    (hmix : NeverMix (Versions fs l) ((Sys.init fs).after cfg serJson l).fs) {x : Outcome Answer}
    (hx : ((Sys.init fs).after cfg serJson (l ++ .start rid call fuel :: l2)).ended
      ((Sys.init fs).after cfg serJson l).tasks.length = some x) :
    (∃ seeds, x.Like Answer.Sim
      ((call.prog ((cfg rid).env serJson ((Sys.init fs).after cfg serJson l).fs) fuel).run (World.init seeds)).1) ∧
    (TsClear (cfg rid).opts ((Sys.init fs).after cfg serJson l).fs call → ∀ seeds, x.Like Answer.Sim
      ((call.prog ((cfg rid).env serJson ((Sys.init fs).after cfg serJson l).fs) fuel).run (World.init seeds)).1) :=
  current_after hs hl2 hc (.inr hkept) hplace hmix hx

/-- C96 for answers that are known for files that stay as they are: the call comes to the same answer amid such
changes. -/
theorem C96_answers (hs : Static cfg serJson fs1) {rid : Nat} {path request : Str} {answer : Except Err Result}
    (ha : isAbs path = true) (h : Yields cfg serJson fs1 rid path request answer) :
    ∃ n, ∀ (fs : Fs) (l : List Event),
      (∀ desc, (cfg rid).opts.descriptionFile = some desc → Kept (Versions fs l) fs1 desc) →
      (∀ desc, (cfg rid).opts.descriptionFile = some desc → InPlace (Versions fs l) fs1 desc) →
      NeverMix (Versions fs l) fs1 →
      ∀ (i : Nat) (t : Task), ((Sys.init fs).after cfg serJson l).tasks[i]? = some t → t.rid = rid →
        t.call = .resolve path request → (∀ q r, Looked cfg serJson fs l i q r → q.answer fs1 = r) →
        n ≤ t.fuel → ∀ o, outcome t.prog = some o → ∃ a, o = .done (.resolve a) ∧ AnsSim a answer := by
  obtain ⟨n, hn⟩ := h.enough
  refine ⟨n, fun fs l hkept hplace hmix i t ht hr hc hlook hfuel o ho => ?_⟩
  subst hr
  have habs : t.call.abs := by rw [hc]; exact ha
  obtain ⟨⟨seeds, h7⟩, -⟩ := C96_kept hs ht habs hlook hkept hplace hmix ho
  obtain ⟨l', g1, t', g2, g3, g4, g5, g6⟩ := fresh_calm cfg serJson fs1 t.rid t.call t.fuel habs seeds
  have hne := hn l' g1 t' g2 g3 (g4.trans hc) (g5 ▸ hfuel) _ g6
  rcases h.right l' g1 t' g2 g3 (g4.trans hc) _ g6 with hx | ⟨a, hx, ha⟩
  · exact absurd hx hne
  · rw [hx] at h7
    cases o with
    | crashed c => cases h7
    | done b =>
      cases b with
      | sideEffects => cases h7
      | resolve b => exact ⟨b, rfl, AnsSim.trans h7 ha⟩

/-! ## The hypotheses are met -/

/-- What the contents of a file mean. -/
def jsonOf (d : Option Doc) : Option Json := d.bind (·.json)

/-- The files called `desc` of the first tree are in the second, unless their directories are gone, with times that are
not earlier, and the same contents if they were well-formed. Other files may be in one of them only, and have other
contents. -/
def Grows (desc : Str) (t t' : Tree) : Prop :=
  ∀ loc d m l, t.at (loc ++ [desc]) = some (.file d m) → t'.at loc = some (.dir l) →
    ∃ d' m', t'.at (loc ++ [desc]) = some (.file d' m') ∧ m ≤ m' ∧ ∀ j, jsonOf d = some j → jsonOf d' = some j

/-- The file is there, as `Grows` says. -/
def fileOk (d : Option Doc) (m : Nat) : Option Tree → Bool
  | some (.file d' m') => decide (m ≤ m') &&
    ((jsonOf d).isNone || decide ((jsonOf d).map serJson = (jsonOf d').map serJson))
  | _ => false

mutual
/-- A program that checks `Grows`, for the entry `n` of a directory. -/
def _root_.Verif.Tree.grows (desc : Str) : Tree → Str → Option Tree → Bool
  | .file d m, n, o => n != desc || fileOk d m o
  | .dir l, _, some (.dir l') => growsList desc l l'
  | .dir _, _, _ => true
/-- See `Tree.grows`. -/
def growsList (desc : Str) : List (Str × Tree) → List (Str × Tree) → Bool
  | [], _ => true
  | (n, t) :: l, l' => t.grows desc n (alookup n l') && growsList desc l l'
end

theorem grows_alookup {desc : Str} {l l' : List (Str × Tree)} (h : growsList desc l l' = true) {n : Str} {t : Tree}
    (hn : alookup n l = some t) : t.grows desc n (alookup n l') = true := by
  induction l with
  | nil => cases hn
  | cons kv l ih =>
    obtain ⟨k, u⟩ := kv
    simp only [growsList, Bool.and_eq_true] at h
    simp only [alookup] at hn
    by_cases hk : k = n
    · rw [if_pos hk] at hn
      cases hn
      subst hk
      exact h.1
    · rw [if_neg hk] at hn
      exact ih h.2 hn

theorem fileOk_iff {d : Option Doc} {m : Nat} {o : Option Tree} (h : fileOk d m o = true) :
    ∃ d' m', o = some (.file d' m') ∧ m ≤ m' ∧ ∀ j, jsonOf d = some j → jsonOf d' = some j := by
  unfold fileOk at h
  split at h
  · rename_i d' m'
    simp only [Bool.and_eq_true, decide_eq_true_eq, Bool.or_eq_true] at h
    refine ⟨d', m', rfl, h.1, fun j hj => ?_⟩
    rcases h.2 with h2 | h2
    · rw [hj] at h2; cases h2
    · rw [hj] at h2
      cases hj' : jsonOf d' with
      | none => rw [hj'] at h2; cases h2
      | some j' =>
        rw [hj'] at h2
        rw [serJson_inj (Option.some.inj h2)]
  · cases h

theorem grows_list {desc : Str} (loc : List Str) : ∀ {l l' : List (Str × Tree)}, growsList desc l l' = true →
    ∀ d m k, (Tree.dir l).at (loc ++ [desc]) = some (.file d m) → (Tree.dir l').at loc = some (.dir k) →
      ∃ d' m', (Tree.dir l').at (loc ++ [desc]) = some (.file d' m') ∧ m ≤ m' ∧
        ∀ j, jsonOf d = some j → jsonOf d' = some j := by
  induction loc with
  | nil =>
    intro l l' h d m k hf _
    simp only [List.nil_append, Tree.at, Tree.child] at hf ⊢
    cases hn : alookup desc l with
    | none => rw [hn] at hf; cases hf
    | some t =>
      rw [hn] at hf
      cases hf
      obtain ⟨d', m', h1, h2, h3⟩ := fileOk_iff (by simpa [Tree.grows] using grows_alookup h hn)
      exact ⟨d', m', by rw [h1], h2, h3⟩
  | cons n loc ih =>
    intro l l' h d m k hf hk
    simp only [List.cons_append, Tree.at, Tree.child] at hf hk ⊢
    cases hn : alookup n l with
    | none => rw [hn] at hf; cases hf
    | some t =>
      rw [hn] at hf
      have hg := grows_alookup h hn
      cases t with
      | file x y => cases loc <;> cases hf
      | dir q =>
        cases hn' : alookup n l' with
        | none => rw [hn'] at hk; cases hk
        | some t' =>
          rw [hn'] at hk hg
          cases t' with
          | file x y => cases loc <;> cases hk
          | dir q' => exact ih (l := q) (l' := q') hg d m k hf hk

theorem grows_of {desc : Str} {t t' : Tree} (ht : t.isDir = true) (ht' : t'.isDir = true)
    (h : t.grows desc [] (some t') = true) : Grows desc t t' := by
  cases t with
  | file d m => cases ht
  | dir l =>
    cases t' with
    | file d m => cases ht'
    | dir l' => exact fun loc => grows_list loc h

theorem reach_split {t : Tree} {A B : List Str} {s r : List Str} :
    t.reach s (A ++ B) = some r ↔ ∃ m, t.reach s A = some m ∧ t.reach m B = some r := by
  induction A generalizing s with
  | nil =>
    simp only [List.nil_append, Tree.reach]
    constructor
    · intro h
      refine ⟨s, if_pos ?_, h⟩
      cases B with
      | nil => simp only [Tree.reach] at h; split at h <;> simp_all
      | cons x B =>
        simp only [Tree.reach] at h
        split at h
        · rename_i hl; rw [hl]; rfl
        · cases h
    · rintro ⟨m, h1, h2⟩
      split at h1
      · cases h1; exact h2
      · cases h1
  | cons x A ih =>
    simp only [List.cons_append, Tree.reach]
    split
    · exact ih
    · exact ⟨nofun, fun ⟨_, h, _⟩ => nomatch h⟩

/-- Where a name in a directory leads. -/
theorem lookup_into {t : Tree} {d desc : Str} {loc : List Str} (hd : ValidName desc) (hne : d ≠ []) :
    t.lookup [] (pjoin d desc) = some loc ↔ ∃ m l, t.lookup [] d = some m ∧ t.at m = some (.dir l) ∧
      loc = m ++ [desc] ∧ (t.at loc).isSome = true := by
  have ha : isAbs desc = false := by
    cases h : isAbs desc with
    | false => rfl
    | true =>
      obtain ⟨r, rfl⟩ := (isAbs_iff desc).1 h
      exact absurd List.mem_cons_self hd.2.1
  have hs : splitC '/' desc = [desc] := splitC_of_not_mem hd.2.1
  have one : ∀ m, t.reach m [desc] = some loc ↔ ∃ l, t.at m = some (.dir l) ∧ loc = m ++ [desc] ∧
      (t.at loc).isSome = true := by
    intro m
    simp only [Tree.reach, if_neg hd.1]
    have he : enter m desc = m ++ [desc] := by
      unfold enter
      rw [if_neg hd.2.2.1, if_neg hd.2.2.2]
    rw [he]
    constructor
    · intro h
      split at h
      · rename_i l hl
        split at h
        · rename_i hsome
          cases h
          exact ⟨l, hl, rfl, hsome⟩
        · cases h
      · cases h
    · rintro ⟨l, h1, rfl, h2⟩
      rw [h1]
      exact if_pos h2
  obtain ⟨p0, h0, h1⟩ := pjoin_text hne ha
  unfold Tree.lookup
  rw [if_neg (by rw [h1]; simp), if_neg hne, h1, splitC_append_sep, hs]
  simp only [ite_self]
  rw [reach_split]
  rcases h0 with ⟨rfl, -⟩ | rfl
  · constructor
    · rintro ⟨m, h2, h3⟩
      obtain ⟨l, h4⟩ := (one m).1 h3
      exact ⟨m, l, h2, h4⟩
    · rintro ⟨m, l, h2, h4⟩
      exact ⟨m, h2, (one m).2 ⟨l, h4⟩⟩
  · have e : ∀ m, t.reach [] (splitC '/' (p0 ++ cs!"/")) = some m ↔
        t.reach [] (splitC '/' p0) = some m ∧ ∃ l, t.at m = some (.dir l) := by
      intro m
      rw [show p0 ++ cs!"/" = p0 ++ '/' :: [] from rfl, splitC_append_sep, reach_split]
      simp only [splitC, Tree.reach, if_true]
      constructor
      · rintro ⟨k, h2, h3⟩
        split at h3
        · rename_i l hl
          split at h3
          · cases h3; exact ⟨h2, l, hl⟩
          · cases h3
        · cases h3
      · rintro ⟨h2, l, hl⟩
        exact ⟨m, h2, by simp [hl]⟩
    constructor
    · rintro ⟨m, h2, h3⟩
      obtain ⟨l, h4⟩ := (one m).1 h3
      exact ⟨m, l, (e m).2 ⟨h2, l, h4.1⟩, h4⟩
    · rintro ⟨m, l, h2, h4⟩
      exact ⟨m, ((e m).1 h2).1, (one m).2 ⟨l, h4⟩⟩

theorem Grows.node {desc : Str} {t t' : Tree} (h : Grows desc t t') (hd : ValidName desc) {d : Str}
    (ha : isAbs d = true) {x : Option Doc} {m : Nat} (hn : t.node [] (pjoin d desc) = some (.file x m)) {l}
    (hl : t'.node [] d = some (.dir l)) : ∃ x' m', t'.node [] (pjoin d desc) = some (.file x' m') ∧ m ≤ m' ∧
      ∀ j, jsonOf x = some j → jsonOf x' = some j := by
  have hne : d ≠ [] := by rintro rfl; cases ha
  unfold Tree.node at hn hl ⊢
  split at hn
  · rename_i loc h1
    split at hl
    · rename_i loc' h2
      obtain ⟨k, q, h3, h4, rfl, h5⟩ := (lookup_into hd hne).1 h1
      obtain rfl : k = loc' := by rw [(Tree.lookup_abs ha h3).1, (Tree.lookup_abs ha h2).1]
      obtain ⟨x', m', g1, g2⟩ := h k x m l hn hl
      refine ⟨x', m', ?_, g2⟩
      rw [(lookup_into hd hne).2 ⟨k, l, h2, hl, rfl, by rw [g1]; rfl⟩]
      exact g1
    · cases hl
  · cases hn

/-- The directory of a file. -/
theorem node_dir {t : Tree} {d desc : Str} {u : Tree} (hd : ValidName desc) (ha : isAbs d = true)
    (h : t.node [] (pjoin d desc) = some u) : ∃ l, t.node [] d = some (.dir l) := by
  have hne : d ≠ [] := by rintro rfl; cases ha
  unfold Tree.node at h ⊢
  split at h
  · rename_i loc h1
    obtain ⟨k, q, h3, h4, -⟩ := (lookup_into hd hne).1 h1
    exact ⟨q, by rw [h3]; exact h4⟩
  · cases h

theorem read_node {t : Tree} {p : Str} {doc : Doc} (h : (treeFs t []).read p = some doc) :
    ∃ m, t.node [] p = some (.file (some doc) m) := by
  simp only [treeFs] at h
  split at h
  · rename_i x m hn
    subst h
    exact ⟨m, hn⟩
  · cases h

theorem isFile_node {t : Tree} {p : Str} : (treeFs t []).isFile p = true ↔ ∃ x m, t.node [] p = some (.file x m) := by
  simp only [treeFs]
  split
  · rename_i x m hn; exact ⟨fun _ => ⟨x, m, hn⟩, fun _ => rfl⟩
  · rename_i hne; exact ⟨nofun, fun ⟨x, m, h⟩ => (hne x m h).elim⟩

theorem kept_trees {ts : List Tree} {t : Tree} {desc : Str} (hd : ValidName desc)
    (h : ∀ u ∈ ts, u.isDir = true ∧ Grows desc u t) {V : Fs → Prop} (hV : ∀ f, V f → ∃ u ∈ ts, f = treeFs u []) :
    Kept V (treeFs t []) desc := by
  intro f d d' doc json hf ha hc hr hj hfile
  obtain ⟨u, hu, rfl⟩ := hV f hf
  obtain ⟨h1, h2⟩ := h u hu
  rw [(treeFs_lawful [] h1).read _ _ (isAbs_pjoin_left desc (by rw [isAbs_of_comps hc]; exact ha))
    (sim_pjoin (by rw [isAbs_of_comps hc]; exact ha) hc desc)] at hr
  obtain ⟨m, hn⟩ := read_node hr
  obtain ⟨y, k, hfile⟩ := isFile_node.1 hfile
  obtain ⟨l, hl⟩ := node_dir hd ha hfile
  obtain ⟨x', m', hn', -, h3⟩ := h2.node hd ha hn hl
  have := h3 json hj
  cases x' with
  | none => cases this
  | some doc' => exact ⟨doc', by simp only [treeFs, hn'], this⟩

/-- Every absolute path is below the root directory. -/
theorem up_root (n : Nat) : ∀ d : Str, d.length < n → isAbs d = true → ∃ r, Up r d ∧ comps r = comps cs!"/" := by
  induction n with
  | zero => intro d hn; omega
  | succ n ih =>
    intro d hn ha
    cases hq : pparent d with
    | some q =>
      obtain ⟨r, h1, h2⟩ := ih q (by have := pparent_length hq; omega) ((isAbs_pparent hq).trans ha)
      exact ⟨r, .step hq h1, h2⟩
    | none =>
      refine ⟨d, .refl, ?_⟩
      rcases (pparent_eq_none d).1 hq with h | h
      · exact absurd ha (by rw [isAbs_iff_comps, h]; simp)
      · rw [h]; decide +kernel

theorem inPlace_grows {ts : List Tree} {t : Tree} {desc : Str} (hd : ValidName desc)
    (h : ∀ u ∈ ts, u.isDir = true ∧ Grows desc u t) (hroot : ∀ u ∈ ts, (treeFs u []).isFile (pjoin cs!"/" desc) = true)
    {V : Fs → Prop} (hV : ∀ f, V f → ∃ u ∈ ts, f = treeFs u []) : InPlace V (treeFs t []) desc where
  stays f d hf ha hd' hdir := by
    obtain ⟨u, hu, rfl⟩ := hV f hf
    obtain ⟨x, m, hn⟩ := isFile_node.1 hd'
    have : ∃ l, t.node [] d = some (.dir l) := by
      simp only [treeFs] at hdir
      split at hdir
      · rename_i l hl; exact ⟨l, hl⟩
      · cases hdir
    obtain ⟨l, hl⟩ := this
    obtain ⟨x', m', hn', -⟩ := (h u hu).2.node hd ha hn hl
    exact isFile_node.2 ⟨x', m', hn'⟩
  above d ha _ := by
    obtain ⟨r, h1, h2⟩ := up_root _ d (Nat.lt_succ_self _) ha
    refine ⟨r, h1, fun f hf => ?_⟩
    obtain ⟨u, hu, rfl⟩ := hV f hf
    have ha' := isAbs_up h1 ha
    rw [(treeFs_lawful [] (h u hu).1).file _ _ (isAbs_pjoin_left desc ha') (sim_pjoin ha' h2 desc)]
    exact hroot u hu
  read f p doc hf hr := by
    obtain ⟨u, hu, rfl⟩ := hV f hf
    obtain ⟨m, hn⟩ := read_node hr
    exact isFile_node.2 ⟨_, m, hn⟩
  time f d p m m' hf ha hc hm hm' := by
    obtain ⟨u, hu, rfl⟩ := hV f hf
    obtain ⟨-, h2⟩ := h u hu
    have hap : isAbs p = true := by rw [isAbs_of_comps hc]; exact isAbs_pjoin_left desc ha
    simp only [treeFs] at hm hm'
    cases h1 : u.node [] p with
    | none => rw [h1] at hm; cases hm
    | some a =>
      cases a with
      | dir l => rw [h1] at hm; cases hm; exact Nat.zero_le _
      | file x k =>
        rw [h1] at hm
        cases hm
        cases h3 : t.node [] (pjoin d desc) with
        | none => rw [h3] at hm'; cases hm'
        | some c =>
          rw [h3] at hm'
          unfold Tree.node at h1 h3
          split at h1
          · rename_i loc hl
            split at h3
            · rename_i loc' hl'
              have e : loc = loc' := by
                rw [(Tree.lookup_abs hap hl).1, (Tree.lookup_abs (isAbs_pjoin_left desc ha) hl').1, normNames,
                  normNames, hc]
              subst e
              obtain ⟨q, r, g3, g4, rfl, -⟩ := (lookup_into hd (by rintro rfl; cases ha)).1 hl'
              obtain ⟨x', k', g1, g2, -⟩ := h2 q x m r h1 g4
              rw [h3] at g1
              cases g1
              cases hm'
              exact g2
            · cases h3
          · cases h1

/-- A project: the file that `main` names is there or not, and the package `x` is not installed, half installed with a
description file that breaks off, or installed. Before that there is a package `y`. -/
def treeKept (main : Bool) (x : Nat) : Tree :=
  .dir (
    (cs!"package.json", timedFile (.obj []) 5) ::
    (cs!"p", .dir (
      (cs!"package.json", timedFile (.obj [(cs!"main", .str cs!"./a.js")]) 5) ::
      (cs!"index.js", textFile) :: if main then [(cs!"a.js", textFile)] else [])) ::
    (cs!"node_modules", .dir (
      match x with
      | 0 => [(cs!"y", .dir [(cs!"package.json", timedFile (.obj [(cs!"main", .str cs!"./m.js")]) 7),
          (cs!"m.js", textFile)])]
      | 1 => [(cs!"x", .dir [(cs!"package.json", textFile)])]
      | _ => [(cs!"x", .dir [(cs!"package.json", timedFile (.obj [(cs!"main", .str cs!"./m.js")]) 7),
          (cs!"m.js", textFile)])])) :: [])

/-- The files as they were. -/
def treesKept : List Tree := [treeKept true 0, treeKept false 0, treeKept false 1, treeKept true 2]

/-- Resolvers with a delay of a second, that share a cache. -/
def cfgKept (_ : Nat) : Config := config optsA 0

/-- A call has found `/p/package.json` when `/p/a.js` is deleted; another one starts and comes to its end while the first
waits; then `x` is installed instead of `y` and asked for at each stage, `/p/a.js` is there again, and the first call
goes on. -/
def histKept : List Event :=
  .start 0 (.resolve cs!"/" cs!"./p") 20 :: List.replicate 6 (.step 0 0) ++
    .change (treeFs (treeKept false 0) []) ::
    (.start 1 (.resolve cs!"/" cs!"./p") 20 :: List.replicate 40 (.step 1 0)) ++
    (.start 1 (.resolve cs!"/p" cs!"y") 20 :: List.replicate 40 (.step 2 0)) ++
    .change (treeFs (treeKept false 1) []) ::
    (.start 0 (.resolve cs!"/p" cs!"x") 20 :: List.replicate 40 (.step 3 0)) ++
    .change (treeFs (treeKept true 2) []) :: List.replicate 40 (.step 0 0)

theorem versions_kept (f : Fs) (h : Versions (treeFs (treeKept true 0) []) histKept f) :
    ∃ u ∈ treesKept, f = treeFs u [] := by
  rcases h with rfl | h
  · exact ⟨_, List.mem_cons_self, rfl⟩
  · simp only [histKept, List.cons_append, List.mem_cons, List.mem_append, List.mem_replicate, reduceCtorEq,
      and_false, false_or, or_false, Event.change.injEq] at h
    rcases h with (rfl | rfl) | rfl <;> exact ⟨_, by simp [treesKept], rfl⟩

theorem fs_kept : ((Sys.init (treeFs (treeKept true 0) [])).after cfgKept serJson histKept).fs =
    treeFs (treeKept true 2) [] := after_change _ _ _ _ _

theorem mem_treesKept {P : Tree → Prop} (h1 : P (treeKept true 0)) (h2 : P (treeKept false 0))
    (h3 : P (treeKept false 1)) (h4 : P (treeKept true 2)) : ∀ u ∈ treesKept, P u := by
  intro u hu
  simp only [treesKept, List.mem_cons, List.not_mem_nil, or_false] at hu
  rcases hu with rfl | rfl | rfl | rfl <;> assumption

-- the hypotheses of `C96_after`
example : Static cfgKept serJson ((Sys.init (treeFs (treeKept true 0) [])).after cfgKept serJson histKept).fs ∧
    (∀ desc, (cfgKept 0).opts.descriptionFile = some desc →
      Kept (Versions (treeFs (treeKept true 0) []) histKept)
        ((Sys.init (treeFs (treeKept true 0) [])).after cfgKept serJson histKept).fs desc) ∧
    (∀ desc, (cfgKept 0).opts.descriptionFile = some desc →
      InPlace (Versions (treeFs (treeKept true 0) []) histKept)
        ((Sys.init (treeFs (treeKept true 0) [])).after cfgKept serJson histKept).fs desc) ∧
    NeverMix (Versions (treeFs (treeKept true 0) []) histKept)
      ((Sys.init (treeFs (treeKept true 0) [])).after cfgKept serJson histKept).fs := by
  rw [fs_kept]
  have hb : ∀ u ∈ treesKept, u.isDir = true ∧ Grows cs!"package.json" u (treeKept true 2) :=
    mem_treesKept ⟨rfl, grows_of rfl rfl (by decide +kernel)⟩ ⟨rfl, grows_of rfl rfl (by decide +kernel)⟩
      ⟨rfl, grows_of rfl rfl (by decide +kernel)⟩ ⟨rfl, grows_of rfl rfl (by decide +kernel)⟩
  refine ⟨static_tree rfl rfl rfl (by decide +kernel), fun desc h => ?_, fun desc h => ?_, ?_⟩
  · obtain rfl : cs!"package.json" = desc := Option.some.inj h
    exact kept_trees (by unfold ValidName; decide) hb versions_kept
  · obtain rfl : cs!"package.json" = desc := Option.some.inj h
    exact inPlace_grows (by unfold ValidName; decide) hb
      (mem_treesKept (by decide +kernel) (by decide +kernel) (by decide +kernel) (by decide +kernel)) versions_kept
  · intro f v t hf _ h _
    obtain ⟨u, hu, rfl⟩ := versions_kept f hf
    obtain ⟨p, doc, json, hr, hj, hv⟩ := h
    have hall : ∀ u ∈ treesKept, u.allDoc (fun d => match d.json with
        | none => true
        | some j => (j.get cs!"imports").isNone) = true :=
      mem_treesKept (by decide +kernel) (by decide +kernel) (by decide +kernel) (by decide +kernel)
    have := allDoc_read (hall u hu) hr
    simp only [hj, hv] at this
    cases this

/-- The calls find what is there when they look, and so do three more calls, by what the others have stored. -/
example : let s := (Sys.init (treeFs (treeKept true 0) [])).after cfgKept serJson (histKept ++
      .start 0 (.resolve cs!"/" cs!"./p") 20 :: List.replicate 40 (.step 4 0) ++
      .start 0 (.resolve cs!"/p" cs!"x") 20 :: List.replicate 40 (.step 5 0) ++
      .start 0 (.resolve cs!"/p" cs!"y") 20 :: List.replicate 40 (.step 6 0))
    s.path 0 = some cs!"/p/a.js" ∧ s.path 1 = some cs!"/p/index.js" ∧ s.path 2 = some cs!"/node_modules/y/m.js" ∧
      (s.error 3).isSome = true ∧ s.path 4 = some cs!"/p/a.js" ∧ s.path 5 = some cs!"/node_modules/x/m.js" ∧
      (s.error 6).isSome = true := by
  decide +kernel

end Verif.Live
