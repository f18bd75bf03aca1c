import Verif.Proofs.Current
import Verif.Props.Live
import Verif.Props.Halts
import Verif.Props.Looks
/-!
# C93: resolvers without delay
-/

namespace Verif.Live

variable {cfg : Nat → Config} {fs fs1 : Fs}

/-- Calls whose resolver has no delay, or whose description files have had the contents that they have now all the
time. -/
theorem current_of (hs : Static cfg serJson fs1) {l : List Event} {i : Nat} {t : Task}
    (ht : ((Sys.init fs).after cfg serJson l).tasks[i]? = some t) (hc : t.call.abs)
    (hlook : ∀ q r, Looked cfg serJson fs l i q r → q.answer fs1 = r)
    (hfresh : (cfg t.rid).duration = 0 ∨
      ∀ desc, (cfg t.rid).opts.descriptionFile = some desc → Kept (Versions fs l) fs1 desc)
    (hplace : ∀ desc, (cfg t.rid).opts.descriptionFile = some desc → InPlace (Versions fs l) fs1 desc)
    (hmix : NeverMix (Versions fs l) fs1) {x : Outcome Answer} (hx : outcome t.prog = some x) :
    (∃ seeds, x.Like Answer.Sim ((t.call.prog ((cfg t.rid).env serJson fs1) t.fuel).run (World.init seeds)).1) ∧
    (TsClear (cfg t.rid).opts fs1 t.call → ∀ seeds,
      x.Like Answer.Sim ((t.call.prog ((cfg t.rid).env serJson fs1) t.fuel).run (World.init seeds)).1) := by
  have h0 := live_looked cfg serJson fs l i t ht x hx
  have hR : ∀ o r, Got cfg serJson fs l i o r → NowRo (Versions fs l) fs1 (cfg t.rid).opts.descriptionFile o r :=
    fun o r h d hd => got_now hs ht hd (hplace d hd) h
  have hnow := call_now hs hfresh hmix hc t.fuel
  rw [← prog_freeze _ _ t.fuel] at hnow
  obtain ⟨o', h1, h2⟩ := (h0.mono (fun _ _ h => h) hR).related hlook hnow
  have hrel := call_rel hs t.rid hc t.fuel
  have hw : ∀ seeds, FaithWo fs1 (cfg t.rid).opts.descriptionFile serJson (World.init seeds) :=
    fun seeds d _ => faithW_init fs1 d serJson seeds
  constructor
  · obtain ⟨seeds, h⟩ := hrel.run_exists (hw fun _ => 0) h1
    exact ⟨seeds, Answer.like_join h2 h⟩
  · intro hts seeds
    obtain ⟨y, hy⟩ := call_sure hs t.rid hts t.fuel
    obtain ⟨o'', h3, h4⟩ := hrel.run (hw seeds)
    rw [hy _ h1] at h2
    rw [hy _ h3] at h4
    exact Answer.like_join h2 h4

/-- C93: any history, in which calls start at any time, files change at any moment, also in the middle of calls, are
malformed for a while, and other resolvers put into the shared caches what they want. If a resolver has no delay, then a
call of it that has seen the files `fs1` ends as in a fresh resolver on `fs1`. -/
theorem C93_current (hs : Static cfg serJson fs1) {l : List Event} {i : Nat} {t : Task}
    (ht : ((Sys.init fs).after cfg serJson l).tasks[i]? = some t) (hc : t.call.abs)
    (hlook : ∀ q r, Looked cfg serJson fs l i q r → q.answer fs1 = r)
    (hdur : (cfg t.rid).duration = 0)
    (hplace : ∀ desc, (cfg t.rid).opts.descriptionFile = some desc → InPlace (Versions fs l) fs1 desc)
    (hmix : NeverMix (Versions fs l) fs1) {x : Outcome Answer} (hx : outcome t.prog = some x) :
    (∃ seeds, x.Like Answer.Sim ((t.call.prog ((cfg t.rid).env serJson fs1) t.fuel).run (World.init seeds)).1) ∧
    (TsClear (cfg t.rid).opts fs1 t.call → ∀ seeds,
      x.Like Answer.Sim ((t.call.prog ((cfg t.rid).env serJson fs1) t.fuel).run (World.init seeds)).1) :=
  current_of hs ht hc hlook (.inl hdur) hplace hmix hx

/-- A call stays the same call. -/
theorem task_same {i : Nat} (l : List Event) (s : Sys) (u : Task) (h1 : s.tasks[i]? = some u) :
    ∃ t, (s.after cfg serJson l).tasks[i]? = some t ∧ t.rid = u.rid ∧ t.call = u.call ∧ t.fuel = u.fuel := by
  induction l generalizing s u with
  | nil => exact ⟨u, h1, rfl, rfl, rfl⟩
  | cons e l ih =>
    have : ∃ u', (s.next cfg serJson e).tasks[i]? = some u' ∧ u'.rid = u.rid ∧ u'.call = u.call ∧ u'.fuel = u.fuel := by
      obtain ⟨hlt, -⟩ := List.getElem?_eq_some_iff.1 h1
      cases e with
      | start rid call fuel =>
        refine ⟨u, ?_, rfl, rfl, rfl⟩
        show (s.tasks ++ _)[i]? = _
        rw [List.getElem?_append_left hlt, h1]
      | change fs => exact ⟨u, h1, rfl, rfl, rfl⟩
      | step j seed =>
        unfold Sys.next
        dsimp only
        split
        · exact ⟨u, h1, rfl, rfl, rfl⟩
        · rename_i v hv
          have key : ∀ p, ∃ u', (s.tasks.set j { v with prog := p })[i]? = some u' ∧ u'.rid = u.rid ∧
              u'.call = u.call ∧ u'.fuel = u.fuel := by
            intro p
            by_cases hij : j = i
            · subst hij
              rw [h1] at hv
              cases hv
              exact ⟨_, List.getElem?_set_self hlt, rfl, rfl, rfl⟩
            · exact ⟨u, by rw [List.getElem?_set_ne hij]; exact h1, rfl, rfl, rfl⟩
          split
          · exact key _
          · exact key _
          · exact ⟨u, h1, rfl, rfl, rfl⟩
    obtain ⟨u', h3, h4, h5, h6⟩ := this
    obtain ⟨t, h7, h8, h9, h10⟩ := ih _ u' h3
    exact ⟨t, h7, h8.trans h4, h9.trans h5, h10.trans h6⟩

/-- A call has looked at files only after its start. -/
theorem looked_after {l l2 : List Event} {rid fuel : Nat} {call : Call} (hl2 : ∀ f, .change f ∉ l2) {q : Query}
    {r : q.Ret} (h : Looked cfg serJson fs (l ++ .start rid call fuel :: l2)
      ((Sys.init fs).after cfg serJson l).tasks.length q r) :
    q.answer ((Sys.init fs).after cfg serJson l).fs = r := by
  obtain ⟨l1, seed, l3, t, k, he, h1, h2, h3⟩ := h
  have hlate : ∀ a, l ≠ l1 ++ a := by
    rintro a rfl
    obtain ⟨t', h4, -⟩ := task_same (cfg := cfg) a _ t h1
    rw [← after_append] at h4
    obtain ⟨h5, -⟩ := List.getElem?_eq_some_iff.1 h4
    omega
  rcases List.append_eq_append_iff.1 he with ⟨a, ha, hb⟩ | ⟨a, ha, hb⟩
  · cases a with
    | nil => exact (hlate [] (by rw [ha]; simp)).elim
    | cons e a =>
      rw [List.cons_append] at hb
      obtain ⟨rfl, rfl⟩ := List.cons_eq_cons.1 hb
      rw [← h3, ha, after_append]
      congr 1
      symm
      exact after_still (cfg := cfg) (ser := serJson) (l := .start rid call fuel :: a) (fun e he f hf => by
        subst hf
        rcases List.mem_cons.1 he with he | he
        · cases he
        · exact hl2 f (List.mem_append_left _ he)) _
  · exact (hlate a ha).elim

/-- The same for calls that start after all changes. -/
theorem current_after {l l2 : List Event} {rid fuel : Nat} {call : Call}
    (hs : Static cfg serJson ((Sys.init fs).after cfg serJson l).fs) (hl2 : ∀ f, .change f ∉ l2) (hc : call.abs)
    (hfresh : (cfg rid).duration = 0 ∨ ∀ desc, (cfg rid).opts.descriptionFile = some desc →
      Kept (Versions fs l) ((Sys.init fs).after cfg serJson l).fs desc)
    (hplace : ∀ desc, (cfg rid).opts.descriptionFile = some desc →
      InPlace (Versions fs l) ((Sys.init fs).after cfg serJson l).fs desc)
    (hmix : NeverMix (Versions fs l) ((Sys.init fs).after cfg serJson l).fs) {x : Outcome Answer}
    (hx : ((Sys.init fs).after cfg serJson (l ++ .start rid call fuel :: l2)).ended
      ((Sys.init fs).after cfg serJson l).tasks.length = some x) :
    (∃ seeds, x.Like Answer.Sim
      ((call.prog ((cfg rid).env serJson ((Sys.init fs).after cfg serJson l).fs) fuel).run (World.init seeds)).1) ∧
    (TsClear (cfg rid).opts ((Sys.init fs).after cfg serJson l).fs call → ∀ seeds, x.Like Answer.Sim
      ((call.prog ((cfg rid).env serJson ((Sys.init fs).after cfg serJson l).fs) fuel).run (World.init seeds)).1) := by
  have hV : Versions fs (l ++ .start rid call fuel :: l2) = Versions fs l := by
    funext f
    refine propext ⟨fun h => h.imp id fun h => ?_, versions_prefix⟩
    rcases List.mem_append.1 h with h | h
    · exact h
    · rcases List.mem_cons.1 h with h | h
      · cases h
      · exact (hl2 f h).elim
  obtain ⟨t, ht, h1, h2, h3⟩ := task_same (cfg := cfg) l2
    (((Sys.init fs).after cfg serJson l).next cfg serJson (.start rid call fuel))
    ⟨rid, ((Sys.init fs).after cfg serJson l).fs, call, fuel, Live.prog (host (cfg rid) serJson fuel) fuel call⟩
    (i := ((Sys.init fs).after cfg serJson l).tasks.length) (by simp [Sys.next])
  have ht' : ((Sys.init fs).after cfg serJson (l ++ .start rid call fuel :: l2)).tasks[
      ((Sys.init fs).after cfg serJson l).tasks.length]? = some t := by
    rw [after_append]; exact ht
  dsimp only at h1 h2 h3
  have := current_of hs ht' (by rw [h2]; exact hc) (fun q r => looked_after hl2) (by rw [h1, hV]; exact hfresh)
    (by rw [h1, hV]; exact hplace) (by rw [hV]; exact hmix)
    (x := x) (by unfold Sys.ended at hx; rw [ht'] at hx; exact hx)
  rw [h1, h2, h3] at this
  exact this

/-- C93, for calls that start after all changes: `l` is any history, the call starts after it, and from then on files do
not change. -/
theorem C93_after {l l2 : List Event} {rid fuel : Nat} {call : Call}
    (hs : Static cfg serJson ((Sys.init fs).after cfg serJson l).fs) (hl2 : ∀ f, .change f ∉ l2) (hc : call.abs)
    (hdur : (cfg rid).duration = 0)
    (hplace : ∀ desc, (cfg rid).opts.descriptionFile = some desc →
      InPlace (Versions fs l) ((Sys.init fs).after cfg serJson l).fs desc)
    (hmix : NeverMix (Versions fs l) ((Sys.init fs).after cfg serJson l).fs) {x : Outcome Answer}
    (hx : ((Sys.init fs).after cfg serJson (l ++ .start rid call fuel :: l2)).ended
      ((Sys.init fs).after cfg serJson l).tasks.length = some x) :
    (∃ seeds, x.Like Answer.Sim
      ((call.prog ((cfg rid).env serJson ((Sys.init fs).after cfg serJson l).fs) fuel).run (World.init seeds)).1) ∧
    (TsClear (cfg rid).opts ((Sys.init fs).after cfg serJson l).fs call → ∀ seeds, x.Like Answer.Sim
      ((call.prog ((cfg rid).env serJson ((Sys.init fs).after cfg serJson l).fs) fuel).run (World.init seeds)).1) :=
  current_after hs hl2 hc (.inl hdur) hplace hmix hx

/-! ## The hypotheses are met -/

mutual
/-- The same files and directories; the times of the second are later by `k` at least. -/
def _root_.Verif.Tree.fits (k : Nat) : Tree → Tree → Bool
  | .file _ m, .file _ m' => decide (m + k ≤ m')
  | .dir l, .dir l' => fitsList k l l'
  | _, _ => false
/-- See `Tree.fits`. -/
def fitsList (k : Nat) : List (Str × Tree) → List (Str × Tree) → Bool
  | [], [] => true
  | (n, t) :: l, (n', t') :: l' => decide (n = n') && t.fits k t' && fitsList k l l'
  | _, _ => false
end

/-- What is at some place in both. -/
def SameKind (k : Nat) : Option Tree → Option Tree → Prop
  | some (.file _ m), some (.file _ m') => m + k ≤ m'
  | some (.dir _), some (.dir _) => True
  | none, none => True
  | _, _ => False

theorem fits_alookup {j : Nat} {l l' : List (Str × Tree)} (h : fitsList j l l' = true) (n : Str) :
    match alookup n l, alookup n l' with
    | some t, some t' => t.fits j t' = true
    | none, none => True
    | _, _ => False := by
  induction l generalizing l' with
  | nil =>
    cases l' with
    | nil => trivial
    | cons kv l' => simp [fitsList] at h
  | cons kv l ih =>
    obtain ⟨k, t⟩ := kv
    cases l' with
    | nil => simp [fitsList] at h
    | cons kv l' =>
      obtain ⟨k', t'⟩ := kv
      simp only [fitsList, Bool.and_eq_true, decide_eq_true_eq] at h
      obtain ⟨⟨rfl, h1⟩, h2⟩ := h
      simp only [alookup]
      by_cases hk : k = n
      · simp only [if_pos hk]; exact h1
      · simp only [if_neg hk]; exact ih h2

theorem fits_at {k : Nat} {t t' : Tree} (h : t.fits k t' = true) (loc : List Str) : SameKind k (t.at loc) (t'.at loc) := by
  induction loc generalizing t t' with
  | nil =>
    cases t <;> cases t' <;> simp_all [Tree.fits, Tree.at, SameKind]
  | cons n loc ih =>
    cases t with
    | file d m =>
      cases t' with
      | file d' m' => trivial
      | dir l' => simp [Tree.fits] at h
    | dir l =>
      cases t' with
      | file d' m' => simp [Tree.fits] at h
      | dir l' =>
        simp only [Tree.fits] at h
        have := fits_alookup h n
        simp only [Tree.at, Tree.child]
        cases h1 : alookup n l with
        | none =>
          cases h2 : alookup n l' with
          | none => trivial
          | some u' => rw [h1, h2] at this; exact this.elim
        | some u =>
          cases h2 : alookup n l' with
          | none => rw [h1, h2] at this; exact this.elim
          | some u' => rw [h1, h2] at this; exact ih this

theorem fits_reach {k : Nat} {t t' : Tree} (h : t.fits k t' = true) (segs loc : List Str) : t.reach loc segs = t'.reach loc segs := by
  induction segs generalizing loc with
  | nil =>
    have := fits_at h loc
    simp only [Tree.reach]
    cases h1 : t.at loc <;> cases h2 : t'.at loc <;> simp_all [SameKind]
  | cons s segs ih =>
    have := fits_at h loc
    simp only [Tree.reach]
    cases h1 : t.at loc with
    | none => cases h2 : t'.at loc <;> simp_all [SameKind]
    | some u => cases h2 : t'.at loc with
      | none => simp_all [SameKind]
      | some u' => cases u <;> cases u' <;> simp_all [SameKind]

theorem fits_node {k : Nat} {t t' : Tree} (h : t.fits k t' = true) (p : Str) : SameKind k (t.node [] p) (t'.node [] p) := by
  have hl : t.lookup [] p = t'.lookup [] p := by
    unfold Tree.lookup
    split
    · rfl
    · exact fits_reach h _ _
  unfold Tree.node
  rw [hl]
  cases t'.lookup [] p with
  | none => trivial
  | some loc => exact fits_at h loc

theorem node_comps {t : Tree} {p q : Str} {u v : Tree} (ha : isAbs p = true) (h : comps p = comps q)
    (hp : t.node [] p = some u) (hq : t.node [] q = some v) : u = v := by
  unfold Tree.node at hp hq
  split at hp
  · rename_i loc h1
    split at hq
    · rename_i loc' h2
      have h3 := (Tree.lookup_abs ha h1).1
      have h4 := (Tree.lookup_abs (by rw [← isAbs_of_comps h]; exact ha) h2).1
      have : loc = loc' := by rw [h3, h4, normNames, normNames, h]
      subst this
      rw [hp] at hq
      cases hq
      rfl
    · cases hq
  · cases hp

theorem place_fits {ts : List Tree} {t : Tree} {k : Nat} {desc : Str} (h : ts.all (fun u => u.fits k t) = true)
    {V : Fs → Prop} (hV : ∀ f, V f → ∃ u ∈ ts, f = treeFs u []) {f : Fs} (d : Str) (hf : V f) :
    f.isFile (pjoin d desc) = (treeFs t []).isFile (pjoin d desc) := by
  obtain ⟨u, hu, rfl⟩ := hV f hf
  have := fits_node (List.all_eq_true.1 h u hu) (pjoin d desc)
  simp only [treeFs]
  cases h1 : u.node [] (pjoin d desc) with
  | none => cases h2 : t.node [] (pjoin d desc) <;> simp_all [SameKind]
  | some a => cases h2 : t.node [] (pjoin d desc) with
    | none => simp_all [SameKind]
    | some b => cases a <;> cases b <;> simp_all [SameKind]

theorem inPlace_trees {ts : List Tree} {t : Tree} (h : ts.all (fun u => u.fits 0 t) = true) {V : Fs → Prop}
    (hV : ∀ f, V f → ∃ u ∈ ts, f = treeFs u []) (desc : Str) : InPlace V (treeFs t []) desc where
  stays f d hf _ h' _ := by rw [← place_fits h hV d hf]; exact h'
  above := .of_place fun f d hf _ => place_fits h hV d hf
  read f p doc hf hr := by
    obtain ⟨u, hu, rfl⟩ := hV f hf
    simp only [treeFs] at hr ⊢
    split at hr
    · rfl
    · cases hr
  time f d p m m' hf ha hc hm hm' := by
    obtain ⟨u, hu, rfl⟩ := hV f hf
    have hal := fits_node (List.all_eq_true.1 h u hu) (pjoin d desc)
    have hap : isAbs p = true := by rw [isAbs_of_comps hc]; exact isAbs_pjoin_left desc ha
    simp only [treeFs] at hm hm'
    cases h1 : u.node [] p with
    | none => rw [h1] at hm; cases hm
    | some a =>
      cases h2 : u.node [] (pjoin d desc) with
      | none =>
        rw [h2] at hal
        cases h3 : t.node [] (pjoin d desc) with
        | none => rw [h3] at hm'; cases hm'
        | some b => rw [h3] at hal; exact hal.elim
      | some b =>
        obtain rfl := node_comps hap hc h1 h2
        rw [h1] at hm
        rw [h2] at hal
        cases h3 : t.node [] (pjoin d desc) with
        | none => rw [h3] at hm'; cases hm'
        | some c =>
          rw [h3] at hal hm'
          cases a with
          | dir l => cases hm; exact Nat.zero_le _
          | file x y =>
            cases c with
            | dir l => exact hal.elim
            | file x' y' => cases hm; cases hm'; exact hal

/-- Two resolvers that share a cache: number 0 has no delay, number 1 has the shortest possible. -/
def cfgNow (rid : Nat) : Config := { config optsA 0 with duration := if rid = 0 then 0 else 1 }

/-- The files before, in between, when the description file is malformed, and after. -/
def treesNow : List Tree := [treeM cs!"./a.js" 0, treeMalformed 2000000000, treeM cs!"./b.js" 2000000000]

/-- Resolver 1 has read the old contents but not yet stored them when the file is replaced, so that it stores them with
the new time; resolver 0 comes across the malformed file. -/
def histNow : List Event :=
  .start 1 (.resolve cs!"/" cs!"./p") 20 :: List.replicate 4 (.step 0 0) ++
    .change (treeFs (treeMalformed 2000000000) []) ::
    (.start 0 (.resolve cs!"/" cs!"./p") 20 :: List.replicate 40 (.step 1 0)) ++
    .change (treeFs (treeM cs!"./b.js" 2000000000) []) :: List.replicate 40 (.step 0 0)

/-- One more call, of resolver `rid`. -/
def lastNow (rid : Nat) : List Event :=
  .start rid (.resolve cs!"/" cs!"./p") 20 :: List.replicate 40 (.step 2 0)

theorem versions_now (f : Fs) (h : Versions (treeFs (treeM cs!"./a.js" 0) []) histNow f) :
    ∃ u ∈ treesNow, f = treeFs u [] := by
  rcases h with rfl | h
  · exact ⟨_, List.mem_cons_self, rfl⟩
  · simp only [histNow, List.cons_append, List.mem_cons, List.mem_append, List.mem_replicate, reduceCtorEq,
      and_false, false_or, or_false, Event.change.injEq] at h
    rcases h with rfl | rfl <;> exact ⟨_, by simp [treesNow], rfl⟩

theorem after_change (s : Sys) (l : List Event) (f : Fs) (i k : Nat) :
    (s.after cfg serJson (l ++ .change f :: List.replicate k (.step i 0))).fs = f := by
  rw [after_append]
  exact after_still (cfg := cfg) (ser := serJson) (l := List.replicate k (.step i 0))
    (fun e he f hf => by rw [hf] at he; cases (List.eq_of_mem_replicate he))
    ((s.after cfg serJson l).next cfg serJson (.change f))

theorem fs_now : ((Sys.init (treeFs (treeM cs!"./a.js" 0) [])).after cfgNow serJson histNow).fs =
    treeFs (treeM cs!"./b.js" 2000000000) [] := after_change _ _ _ _ _

theorem noImports_now {u : Tree} (hu : u ∈ treesNow) : u.allDoc (fun d => match d.json with
    | none => true
    | some j => (j.get cs!"imports").isNone) = true := by
  simp only [treesNow, List.mem_cons, List.not_mem_nil, or_false] at hu
  rcases hu with rfl | rfl | rfl <;> decide +kernel

theorem static_now : Static cfgNow serJson (treeFs (treeM cs!"./b.js" 2000000000) []) where
  lawful := treeFs_lawful [] rfl
  debug _ := rfl
  inj _ _ := serJson_inj
  mix := (static_tree (t := treeM cs!"./b.js" 2000000000) (o := optsA) rfl rfl rfl (by decide +kernel)).mix
  desc rid rid' d d' _ h h' := by
    have h : optsA.descriptionFile = some d := h
    have h' : optsA.descriptionFile = some d' := h'
    rw [h] at h'; exact Option.some.inj h'
  browser rid desc h := by cases h
  tsconfig rid l h := by cases h

-- the hypotheses of `C93_after`
example : Static cfgNow serJson ((Sys.init (treeFs (treeM cs!"./a.js" 0) [])).after cfgNow serJson histNow).fs ∧
    (cfgNow 0).duration = 0 ∧
    (∀ desc, (cfgNow 0).opts.descriptionFile = some desc →
      InPlace (Versions (treeFs (treeM cs!"./a.js" 0) []) histNow)
        ((Sys.init (treeFs (treeM cs!"./a.js" 0) [])).after cfgNow serJson histNow).fs desc) ∧
    NeverMix (Versions (treeFs (treeM cs!"./a.js" 0) []) histNow)
      ((Sys.init (treeFs (treeM cs!"./a.js" 0) [])).after cfgNow serJson histNow).fs := by
  rw [fs_now]
  refine ⟨static_now, rfl, fun desc _ => inPlace_trees (ts := treesNow) (by decide +kernel) versions_now desc, ?_⟩
  intro f v t hf _ h _
  obtain ⟨u, hu, rfl⟩ := versions_now f hf
  obtain ⟨p, doc, json, hr, hj, hv⟩ := h
  have := allDoc_read (noImports_now hu) hr
  simp only [hj, hv] at this
  cases this

/-- C93: the resolver without delay finds `/p/b.js`. It is sharp that there is no delay: with one of a nanosecond, the
last call finds the file that the first version of the description file names. -/
theorem C93_delay_sharp :
    ((Sys.init (treeFs (treeM cs!"./a.js" 0) [])).after cfgNow serJson (histNow ++ lastNow 0)).path 2 =
        some cs!"/p/b.js" ∧
      ((Sys.init (treeFs (treeM cs!"./a.js" 0) [])).after cfgNow serJson (histNow ++ lastNow 1)).path 2 =
        some cs!"/p/a.js" := by
  decide +kernel

/-- C93 needs that description files stay where they are: also without delay, a deleted one is still used. -/
theorem C93_deleted_sharp :
    let ask (i : Nat) : List Event := .start 0 (.resolve cs!"/" cs!"./p") 20 :: List.replicate 40 (.step i 0)
    ((Sys.init (treeFs (treeM cs!"./a.js" 0) [])).after cfgNow serJson
      (ask 0 ++ .change (treeFs treeDeleted []) :: ask 1)).path 1 = some cs!"/p/a.js" ∧
    ((Sys.init (treeFs treeDeleted [])).after cfgNow serJson (ask 0)).path 0 = some cs!"/p/index.js" := by
  decide +kernel

/-- C93 needs that times do not go back: also without delay, calls fail then. -/
theorem C93_backwards_sharp :
    let ask (i : Nat) : List Event := .start 0 (.resolve cs!"/" cs!"./p") 20 :: List.replicate 40 (.step i 0)
    let s := (Sys.init (treeFs (treeM cs!"./a.js" 5) [])).after cfgNow serJson
      (ask 0 ++ .change (treeFs (treeM cs!"./b.js" 4) []) :: ask 1)
    s.path 0 = some cs!"/p/a.js" ∧ (s.error 1).isSome = true := by
  decide +kernel

end Verif.Live
