import Verif.Proofs.Changes
import Verif.Proofs.Current
import Verif.Spec.Heal
/-!
# Description files that are all touched
-/

namespace Verif

/-! ## Old values -/

/-- Files with nothing but a value that was once in a file. -/
def noteFs (name : Str) (v : Json) : Fs where
  isFile _ := false
  isDir _ := true
  pathExists _ := true
  read p := if isAbs p then none else some ⟨some (.obj [(name, v)]), .ok none⟩
  mtime _ := none
  canon _ := none

theorem noteFs_lawful (name : Str) (v : Json) : (noteFs name v).Lawful where
  dir _ _ _ _ := rfl
  file _ _ _ _ := rfl
  pathExists _ _ _ _ := rfl
  read p q ha h := by
    have : isAbs q = true := by rw [← isAbs_of_comps h.1]; exact ha
    simp only [noteFs, ha, this]
  mtime _ _ _ _ := rfl
  canon _ _ _ _ := rfl
  dirNotFile _ _ _ := rfl
  parent _ _ _ _ _ := rfl
  root := rfl
  dirExists _ _ _ := rfl

theorem noteFs_field {name : Str} {v : Json} {k : Str} {w : Json} (h : IsField (noteFs name v) k w) :
    name = k ∧ v = w := by
  obtain ⟨p, doc, json, h1, h2, h3⟩ := h
  simp only [noteFs] at h1
  split at h1
  · cases h1
  · cases h1
    cases h2
    simp only [Json.get, alookup] at h3
    split at h3
    · rename_i hk
      cases h3
      exact ⟨hk, rfl⟩
    · cases h3

theorem field_noteFs (name : Str) (v : Json) : IsField (noteFs name v) name v :=
  ⟨[], _, _, rfl, rfl, by simp [Json.get, alookup]⟩

/-- The files that may come, and notes of what was there before. -/
def Noted (V F : Fs → Prop) (f : Fs) : Prop :=
  F f ∨ ∃ name v fs', (name = cs!"exports" ∨ name = cs!"imports") ∧ V fs' ∧ IsField fs' name v ∧ f = noteFs name v

variable {cfg : Nat → Config} {V F : Fs → Prop}

theorem noted_field {f : Fs} {k : Str} {v : Json} (h : Noted V F f) (hv : IsField f k v) :
    ∃ f', (V f' ∨ F f') ∧ IsField f' k v := by
  rcases h with h | ⟨name, w, fs', -, h2, h3, rfl⟩
  · exact ⟨f, .inr h, hv⟩
  · obtain ⟨rfl, rfl⟩ := noteFs_field hv
    exact ⟨fs', .inl h2, h3⟩

theorem changing_noted (hF : Changing cfg serJson F) {fs1 : Fs} (h1 : F fs1) (hm : NotMixed fun f => V f ∨ F f) :
    Changing cfg serJson (Noted V F) where
  static f h := by
    rcases h with h | ⟨name, w, fs', hn, h2, h3, rfl⟩
    · exact hF.static f h
    · have hs := hF.static fs1 h1
      exact {
        lawful := noteFs_lawful _ _
        debug := hs.debug
        inj := hs.inj
        mix := fun v t he hi => by
          obtain ⟨rfl, -⟩ := noteFs_field he
          obtain ⟨h4, -⟩ := noteFs_field hi
          exact absurd h4 (by decide)
        desc := hs.desc
        browser := fun rid desc _ _ d doc json fields ha hr => by
          simp only [noteFs, isAbs_pjoin_left desc ha, if_true] at hr
          cases hr
        tsconfig := hs.tsconfig }
  relative := hF.relative
  readable f rid desc h hd := by
    rcases h with h | ⟨name, w, fs', hn, h2, h3, rfl⟩
    · exact hF.readable f rid desc h hd
    · intro d _ hh
      cases hh.2
  mix f f' v t h h' he hi := by
    obtain ⟨g, h2, h3⟩ := noted_field h he
    obtain ⟨g', h4, h5⟩ := noted_field h' hi
    exact hm g g' v t h2 h4 h3 h5

theorem treeText_noted {k : Str} {t : Node} (h : TreeText V k t) : TreeIn (Noted V F) serJson k t := by
  obtain ⟨fs', v, h1, h2, ⟨h3, h4⟩ | ⟨h3, h4⟩⟩ := h
  · exact ⟨noteFs cs!"exports" v, v, .inr ⟨_, _, fs', .inl rfl, h1, h3, rfl⟩, h2, .inl ⟨field_noteFs _ _, h4⟩⟩
  · exact ⟨noteFs cs!"imports" v, v, .inr ⟨_, _, fs', .inr rfl, h1, h3, rfl⟩, h2, .inr ⟨field_noteFs _ _, h4⟩⟩

/-! ## The caches -/

theorem freshS_touched {fs1 : Fs} (hs : Static cfg serJson fs1) {s : Shared} (hj : Live.StoredJ V cfg s)
    (ht : ∀ rid desc, (cfg rid).opts.descriptionFile = some desc → Touched V fs1 desc (cfg rid).duration) :
    FreshS cfg serJson (Noted V F) fs1 s := by
  intro rid desc seeds hdesc
  have ht := ht rid desc hdesc
  have hent : ∀ d v, (s.caches (cfg rid).cache).pkg (comps d) = some v →
      ∃ d', comps d' = comps d ∧ EntryWas V desc d' v := by
    intro d v hv
    obtain ⟨rid', desc', d', h5, h6, h7, h8⟩ := hj.pkg _ _ _ hv
    obtain rfl := hs.desc _ _ _ _ h5 h6 hdesc
    exact ⟨d', h7, h8⟩
  have hhas : ∀ d, isAbs d = true → fs1.isFile (pjoin d desc) = true → fs1.Has desc d :=
    fun d ha hf => ⟨ht.dir d ha hf, hf⟩
  refine ⟨fun d ha hr => ?_, fun d p ha hr => ?_, fun d m ha hr => ?_, fun k t hr => ?_, fun k => hj.imports _ _⟩
  · obtain ⟨d', h5, h6⟩ := hent _ _ hr
    have ha' : isAbs d' = true := by rw [isAbs_of_comps h5]; exact ha
    have hn : closest fs1 desc d' = none := ht.above.none ha' h6
    rcases closest_comps (desc := desc) hs.lawful ha' h5 with ⟨h7, h8⟩ | ⟨x, x', h7, -⟩
    · exact h8
    · rw [hn] at h7; cases h7
  · obtain ⟨d', h5, h6⟩ := hent _ _ hr
    have ha' : isAbs d' = true := by rw [isAbs_of_comps h5]; exact ha
    obtain ⟨fs', doc, h7, h8, -⟩ := h6.file
    have h9 := ht.read fs' d' _ _ h7 ha' rfl h8
    replace h9 := ht.stays fs' d' h7 ha' h9
    refine ⟨hhas d ha ?_, .inr fun m now hm hnow => ?_⟩
    · rw [← hs.lawful.file _ _ (isAbs_pjoin_left desc ha') (sim_pjoin ha' h5 desc)]
      exact h9
    · obtain ⟨q, fs', fs'', doc, h5, h6, h7, h8, h9⟩ := hj.time _ _ _ hm
      refine ht.time fs' d q m now h6 ha h5 ?_ h7 hnow
      exact ht.stays fs'' d h8 ha (ht.read fs'' d q doc h8 ha h5 h9)
  · obtain ⟨q, fs', fs'', doc, h5, h6, h7, h8, h9⟩ := hj.time _ _ _ hr
    have hf : fs1.isFile (pjoin d desc) = true := by
      exact ht.stays fs'' d h8 ha (ht.read fs'' d q doc h8 ha h5 h9)
    refine ⟨hhas d ha hf, fun now hnow => ?_⟩
    have := ht.time fs' d q m now h6 ha h5 hf h7 hnow
    omega
  · exact treeText_noted (hj.exports _ _ _ hr)

namespace Live

/-! ## Calls that are over -/

/-- The events without the steps of the first `n` calls, which are left out. -/
def without (n : Nat) (l : List Event) : List Event :=
  l.filterMap fun e => match e with
    | .step i seed => if i < n then none else some (.step (i - n) seed)
    | e => some e

theorem next_over {ser : Json → Str} {s : Sys} {i seed : Nat} {t : Task} {x : Outcome Answer} (ht : s.tasks[i]? = some t)
    (hx : outcome t.prog = some x) : s.next cfg ser (.step i seed) = s := by
  unfold Sys.next
  simp only [ht]
  cases hp : t.prog with
  | ret a => rfl
  | crash c => rfl
  | ask q k => rw [hp] at hx; cases hx
  | op o k => rw [hp] at hx; cases hx

/-- Calls that are over can be left out. -/
theorem after_without {ser : Json → Str} {old : List Task} (hold : ∀ t ∈ old, ∃ x, outcome t.prog = some x)
    (l : List Event) (sh : Shared) (f : Fs) (r : List Task) :
    ∃ sh' f' r', Sys.after cfg ser ⟨sh, f, old ++ r⟩ l = ⟨sh', f', old ++ r'⟩ ∧
      Sys.after cfg ser ⟨sh, f, r⟩ (without old.length l) = ⟨sh', f', r'⟩ := by
  induction l generalizing sh f r with
  | nil => exact ⟨sh, f, r, rfl, rfl⟩
  | cons e l ih =>
    cases e with
    | start rid call fuel =>
      obtain ⟨sh', f', r', h1, h2⟩ := ih sh f (r ++ [⟨rid, f, call, fuel, Live.prog (host (cfg rid) ser fuel) fuel call⟩])
      refine ⟨sh', f', r', ?_, h2⟩
      rw [← h1, ← List.append_assoc]
      rfl
    | change g =>
      obtain ⟨sh', f', r', h1, h2⟩ := ih sh g r
      exact ⟨sh', f', r', h1, h2⟩
    | step i seed =>
      by_cases hi : i < old.length
      · obtain ⟨sh', f', r', h1, h2⟩ := ih sh f r
        refine ⟨sh', f', r', ?_, ?_⟩
        · have hget : (old ++ r)[i]? = some old[i] := by rw [List.getElem?_append_left hi, List.getElem?_eq_getElem hi]
          obtain ⟨x, hx⟩ := hold old[i] (List.getElem_mem hi)
          rw [← h1]
          show Sys.after cfg ser (Sys.next cfg ser _ _) l = _
          rw [next_over (s := ⟨sh, f, old ++ r⟩) hget hx]
        · unfold without
          rw [List.filterMap_cons]
          simp only [if_pos hi]
          exact h2
      · have hi' : old.length ≤ i := by omega
        have hget : (old ++ r)[i]? = r[i - old.length]? := List.getElem?_append_right hi'
        have hw : without old.length (.step i seed :: l) = .step (i - old.length) seed :: without old.length l := by
          unfold without
          rw [List.filterMap_cons]
          simp only [if_neg hi]
        rw [hw]
        have hset : ∀ t, (old ++ r).set i t = old ++ r.set (i - old.length) t := fun t => by
          rw [List.set_append_right _ _ hi']
        have hstep : ∃ sh1 r1, Sys.next cfg ser ⟨sh, f, old ++ r⟩ (.step i seed) = ⟨sh1, f, old ++ r1⟩ ∧
            Sys.next cfg ser ⟨sh, f, r⟩ (.step (i - old.length) seed) = ⟨sh1, f, r1⟩ := by
          unfold Sys.next
          simp only [hget]
          cases hr : r[i - old.length]? with
          | none => exact ⟨sh, r, rfl, rfl⟩
          | some t =>
            cases hp : t.prog with
            | ret a => exact ⟨sh, r, by simp only [hp], by simp only [hp]⟩
            | crash c => exact ⟨sh, r, by simp only [hp], by simp only [hp]⟩
            | ask q k => simp only [hp, hset]; exact ⟨_, _, rfl, rfl⟩
            | op o k => simp only [hp, hset]; exact ⟨_, _, rfl, rfl⟩
        obtain ⟨sh1, r1, h1, h2⟩ := hstep
        obtain ⟨sh', f', r', h3, h4⟩ := ih sh1 f r1
        refine ⟨sh', f', r', ?_, ?_⟩
        · rw [← h3, ← h1]; rfl
        · rw [← h4, ← h2]; rfl

theorem turns_without {ser : Json → Str} {old : List Task} (hold : ∀ t ∈ old, ∃ x, outcome t.prog = some x)
    (l : List Event) (sh : Shared) (f : Fs) (r : List Task) (h : Turns cfg ser F ⟨sh, f, old ++ r⟩ l) :
    Turns cfg ser F ⟨sh, f, r⟩ (without old.length l) := by
  have hidle : ∀ {sh f r}, Sys.Idle ⟨sh, f, old ++ r⟩ → Sys.Idle ⟨sh, f, r⟩ :=
    fun h t ht => h t (List.mem_append_right _ ht)
  induction l generalizing sh f r with
  | nil => trivial
  | cons e l ih =>
    obtain ⟨h1, h2⟩ := h
    obtain ⟨sh', f', r', h3, h4⟩ := after_without (cfg := cfg) (ser := ser) hold [e] sh f r
    have h3 : Sys.next cfg ser ⟨sh, f, old ++ r⟩ e = ⟨sh', f', old ++ r'⟩ := h3
    rw [h3] at h2
    have h5 := ih sh' f' r' h2
    cases e with
    | start rid call fuel =>
      have h4 : Sys.next cfg ser ⟨sh, f, r⟩ (.start rid call fuel) = ⟨sh', f', r'⟩ := h4
      exact ⟨⟨hidle h1.1, h1.2⟩, by rw [h4]; exact h5⟩
    | change g =>
      have h4 : Sys.next cfg ser ⟨sh, f, r⟩ (.change g) = ⟨sh', f', r'⟩ := h4
      exact ⟨⟨hidle h1.1, h1.2⟩, by rw [h4]; exact h5⟩
    | step i seed =>
      unfold without at h4 ⊢
      rw [List.filterMap_cons] at h4 ⊢
      by_cases hi : i < old.length
      · simp only [if_pos hi] at h4 ⊢
        cases h4
        exact h5
      · simp only [if_neg hi] at h4 ⊢
        have h4 : Sys.next cfg ser ⟨sh, f, r⟩ (.step (i - old.length) seed) = ⟨sh', f', r'⟩ := h4
        exact ⟨trivial, by rw [h4]; exact h5⟩

end Live

end Verif
