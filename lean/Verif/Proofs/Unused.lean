import Verif.Spec.Unused
import Verif.Proofs.History
import Verif.Proofs.Congr
/-!
# Options that apply to nothing do not matter
-/

namespace Verif

/-! ## Programs that run in lock-step -/

/-- The same operations with the same ends, as long as the answers satisfy `R`; the operations satisfy
`G`. -/
inductive Prog.Lock {α : Type} (G : Op → Prop) (R : (o : Op) → o.Ret → Prop) : Prog α → Prog α → Prop where
  | ret (a : α) : Lock G R (.ret a) (.ret a)
  | crash (c : Crash) : Lock G R (.crash c) (.crash c)
  | op {o : Op} {k k' : o.Ret → Prog α} : G o → (∀ r, R o r → Lock G R (k r) (k' r)) →
      Lock G R (.op o k) (.op o k')

section
variable {α β : Type} {G : Op → Prop} {R : (o : Op) → o.Ret → Prop}

theorem Prog.Lock.bind {p q : Prog α} {f g : α → Prog β} (h : p.Lock G R q)
    (hf : ∀ a, (f a).Lock G R (g a)) : (p.bind f).Lock G R (q.bind g) := by
  induction h with
  | ret a => exact hf a
  | crash c => exact .crash c
  | op hg _ ih => exact .op hg ih

theorem Prog.Sat.lock {P : α → Prop} {p : Prog α} {f g : α → Prog β} (h : p.Sat G R P)
    (hf : ∀ a, P a → (f a).Lock G R (g a)) : (p.bind f).Lock G R (p.bind g) := by
  induction p with
  | ret a => exact hf a h
  | crash c => exact .crash c
  | op o k ih => exact .op h.1 fun r hr => ih r (h.2 r hr)

theorem Prog.Sat.lock_self {P : α → Prop} {p : Prog α} (h : p.Sat G R P) : p.Lock G R p := by
  induction p with
  | ret a => exact .ret a
  | crash c => exact .crash c
  | op o k ih => exact .op h.1 fun r hr => ih r (h.2 r hr)

theorem Prog.Lock.panic (s : Site) : (Prog.panic s : Prog α).Lock G R (Prog.panic s) := .crash _

theorem Stats.lock_andThen {f g : Info → Prog Stats} (h : ∀ i, (f i).Lock G R (g i)) (s : Stats) :
    (s.andThen f).Lock G R (s.andThen g) := by
  cases s with
  | resolving i => exact h i
  | success r => exact .ret _
  | error e i => exact .ret _

end

/-! ## Condition names -/

mutual
/-- All keys in a value. -/
def MV.AllKeys (P : Str → Prop) : MV → Prop
  | .direct _ => True
  | .arr l => itemKeys P l
  | .cond l => condKeys P l
/-- See `MV.AllKeys`. -/
def itemKeys (P : Str → Prop) : List MV → Prop
  | [] => True
  | v :: l => v.AllKeys P ∧ itemKeys P l
/-- See `MV.AllKeys`. -/
def condKeys (P : Str → Prop) : List (Str × MV) → Prop
  | [] => True
  | (k, v) :: l => P k ∧ v.AllKeys P ∧ condKeys P l
end

section
variable {P : Str → Prop}

theorem condKeys_iff {l : List (Str × MV)} : condKeys P l ↔ ∀ kv ∈ l, P kv.1 ∧ kv.2.AllKeys P := by
  induction l with
  | nil => simp [condKeys]
  | cons x l ih => obtain ⟨k, v⟩ := x; simp [condKeys, ih, and_assoc]

theorem itemKeys_iff {l : List MV} : itemKeys P l ↔ ∀ v ∈ l, v.AllKeys P := by
  induction l with
  | nil => simp [itemKeys]
  | cons x l ih => simp [itemKeys, ih]

theorem mem_ainsert_key {β : Type} {k : Str} {v : β} {l : List (Str × β)} {kv : Str × β}
    (h : kv ∈ ainsert k v l) : kv = (k, v) ∨ kv ∈ l := by
  induction l with
  | nil => exact .inl (List.mem_singleton.1 h)
  | cons x l ih =>
    obtain ⟨k', v'⟩ := x
    simp only [ainsert] at h
    split at h
    · rename_i e
      rcases List.mem_cons.1 h with h | h
      · exact .inl (by rw [h, e])
      · exact .inr (List.mem_cons_of_mem _ h)
    · rcases List.mem_cons.1 h with h | h
      · exact .inr (h ▸ List.mem_cons_self ..)
      · rcases ih h with h | h
        · exact .inl h
        · exact .inr (List.mem_cons_of_mem _ h)

mutual
theorem fromJson_keys : ∀ (j : Json) (v : MV), fromJson j = some v → (∀ k ∈ j.keys, P k) → v.AllKeys P
  | .null, v, h, _ => by simp [fromJson] at h
  | .bool _, v, h, _ => by simp [fromJson] at h
  | .num _, v, h, _ => by simp [fromJson] at h
  | .str s, v, h, _ => by simp [fromJson] at h; subst h; trivial
  | .arr l, v, h, hk => by
    simp only [fromJson, Option.map_eq_some_iff] at h
    obtain ⟨r, hr, rfl⟩ := h
    exact fromJsonArr_keys l r hr hk
  | .obj l, v, h, hk => by
    simp only [fromJson, Option.map_eq_some_iff] at h
    obtain ⟨r, hr, rfl⟩ := h
    exact fromJsonObj_keys l [] r hr hk trivial
theorem fromJsonArr_keys : ∀ (l : List Json) (r : List MV), fromJsonArr l = some r →
    (∀ k ∈ arrKeys l, P k) → itemKeys P r
  | [], r, h, _ => by simp [fromJsonArr] at h; subst h; trivial
  | j :: l, r, h, hk => by
    unfold fromJsonArr at h
    cases hj : fromJson j with
    | none => rw [hj] at h; cases h
    | some v =>
      rw [hj] at h
      have h1 := fromJson_keys j v hj fun k h => hk k (List.mem_append_left _ h)
      have key : ∀ r', fromJsonArr l = some r' → r = v :: r' → itemKeys P r := by
        rintro r' hr' rfl
        exact ⟨h1, fromJsonArr_keys l r' hr' fun k h => hk k (List.mem_append_right _ h)⟩
      cases v with
      | arr _ => cases h
      | direct s =>
        simp only [Option.map_eq_some_iff] at h
        obtain ⟨r', hr', e⟩ := h
        exact key r' hr' e.symm
      | cond s =>
        simp only [Option.map_eq_some_iff] at h
        obtain ⟨r', hr', e⟩ := h
        exact key r' hr' e.symm
theorem fromJsonObj_keys : ∀ (l : List (Str × Json)) (acc r : List (Str × MV)),
    fromJsonObj l acc = some r → (∀ k ∈ objKeys l, P k) → condKeys P acc → condKeys P r
  | [], acc, r, h, _, ha => by simp [fromJsonObj] at h; subst h; exact ha
  | (k, j) :: l, acc, r, h, hk, ha => by
    unfold fromJsonObj at h
    cases hj : fromJson j with
    | none => rw [hj] at h; cases h
    | some v =>
      rw [hj] at h
      have h1 := fromJson_keys j v hj fun k' h =>
        hk k' (List.mem_cons_of_mem _ (List.mem_append_left _ h))
      refine fromJsonObj_keys l _ r h
        (fun k' h => hk k' (List.mem_cons_of_mem _ (List.mem_append_right _ h))) ?_
      rw [condKeys_iff] at ha ⊢
      intro kv hm
      rcases mem_ainsert_key hm with rfl | hm
      · exact ⟨hk k (List.mem_cons_self ..), h1⟩
      · exact ha kv hm
end

theorem buildTree_keys {k : FieldKind} {j : Json} {root : Node} (hj : ∀ k ∈ j.keys, P k)
    (h : buildTree k j = some (.ok root)) : root.Vals (MV.AllKeys P) := by
  unfold buildTree at h
  cases hf : fromJson j with
  | none => rw [hf] at h; cases h
  | some v =>
    rw [hf] at h
    have hv := fromJson_keys j v hf hj
    have hc : ∀ m, v = .cond m → ∀ kv ∈ m, kv.2.AllKeys P := by
      rintro m rfl kv hm
      exact (condKeys_iff.1 hv kv hm).2
    cases k with
    | exports =>
      simp only [Option.some.injEq] at h
      unfold buildExportsMV at h
      split at h
      · rename_i m
        simp only at h
        split at h
        · cases h
        · split at h
          · cases h; exact vals_root hv
          · exact buildExportsLoop_vals (hc _ rfl) vals_empty h
      · cases h; exact vals_root hv
      · cases h; exact vals_root hv
    | imports =>
      simp only at h
      split at h
      · simp only [Option.some.injEq] at h
        exact buildImportsLoop_vals (hc _ rfl) vals_empty h
      · cases h
end

/-- The names agree on a key. -/
def SameName (names names' : List Str) (k : Str) : Prop :=
  k ≠ cs!"default" → (k ∈ names ↔ k ∈ names')

section
variable {names names' : List Str}

theorem alookup_some_of_key {β : Type} {k : Str} {l : List (Str × β)} (h : k ∈ l.map (·.1)) :
    ∃ v, alookup k l = some v := by
  induction l with
  | nil => cases h
  | cons x l ih =>
    obtain ⟨k', v'⟩ := x
    simp only [alookup]
    split
    · exact ⟨_, rfl⟩
    · rename_i hne
      rcases List.mem_cons.1 h with h | h
      · exact absurd h.symm hne
      · exact ih h

theorem condScan_same (m : List (Str × MV)) (len i : Nat) (l : List Str)
    (hl : ∀ k ∈ l, k ∈ m.map (·.1) ∧ SameName names names' k) :
    condScan m len names i l = condScan m len names' i l := by
  induction l generalizing i with
  | nil => rfl
  | cons c l ih =>
    obtain ⟨h1, h2⟩ := hl c (List.mem_cons_self ..)
    have ih := fun i => ih i fun k hk => hl k (List.mem_cons_of_mem _ hk)
    simp only [condScan]
    split
    · rfl
    · by_cases hc : c = cs!"default"
      · obtain ⟨v, hv⟩ := alookup_some_of_key h1
        rw [hc] at hv
        simp only [hc, if_true, hv]
        cases v <;> rfl
      · have : names.contains c = names'.contains c := by
          rw [Bool.eq_iff_iff, List.contains_iff_mem, List.contains_iff_mem]
          exact h2 hc
        simp only [hc, if_false, this, ih]

theorem condScan_inner {m : List (Str × MV)} {len i : Nat} {l : List Str} {names : List Str}
    (hm : ∀ kv ∈ m, kv.2.AllKeys P) :
    (∀ j inner, condScan m len names i l = .push j inner → (MV.cond inner).AllKeys P) ∧
      ∀ v, condScan m len names i l = .found v → v.AllKeys P := by
  have look : ∀ k v, alookup k m = some v → v.AllKeys P := fun k v h =>
    hm (k, v) (file_ok.mem_of_alookup' h)
  induction l generalizing i with
  | nil => exact ⟨nofun, nofun⟩
  | cons c l ih =>
    simp only [condScan]
    split
    · exact ⟨nofun, nofun⟩
    · have h0 : ∀ v, (if c = cs!"default" then alookup cs!"default" m else none) = some v →
          v.AllKeys P := by
        intro v h
        split at h
        · exact look _ _ h
        · cases h
      split
      · rename_i inner h
        exact ⟨fun j x e => by cases e; exact h0 _ h, nofun⟩
      · rename_i v _ h
        exact ⟨nofun, fun x e => by cases e; exact h0 _ h⟩
      · split
        · split
          · rename_i inner h
            exact ⟨fun j x e => by cases e; exact look _ _ h, nofun⟩
          · rename_i v _ h
            exact ⟨nofun, fun x e => by cases e; exact look _ _ h⟩
          · exact ih
        · exact ih

/-- What holds of an entry of the stack. -/
def EntryOk (P : Str → Prop) (e : List (Str × MV) × List Str × Nat) : Prop :=
  e.2.1 = e.1.map (·.1) ∧ ∀ kv ∈ e.1, P kv.1 ∧ kv.2.AllKeys P

theorem condLoop_same (n : Nat) (stack : List (List (Str × MV) × List Str × Nat))
    (hs : ∀ e ∈ stack, EntryOk (SameName names names') e) :
    condLoop names n stack = condLoop names' n stack ∧
      ∀ v, condLoop names n stack = some (.ok (some v)) → v.AllKeys (SameName names names') := by
  induction n generalizing stack with
  | zero => exact ⟨rfl, nofun⟩
  | succ n ih =>
    cases stack with
    | nil => exact ⟨rfl, nofun⟩
    | cons e stack =>
      obtain ⟨m, keys, j⟩ := e
      obtain ⟨hk, hm⟩ := hs _ (List.mem_cons_self ..)
      simp only at hk hm
      have hst := fun e he => hs e (List.mem_cons_of_mem _ he)
      have e1 : condScan m keys.length names j (keys.drop j) =
          condScan m keys.length names' j (keys.drop j) := by
        refine condScan_same _ _ _ _ fun k h => ?_
        have h := hk ▸ List.mem_of_mem_drop h
        refine ⟨h, ?_⟩
        obtain ⟨kv, h1, rfl⟩ := List.mem_map.1 h
        exact (hm kv h1).1
      obtain ⟨h2, h3⟩ := condScan_inner (len := keys.length) (i := j) (l := keys.drop j)
        (names := names) (fun kv h => (hm kv h).2)
      simp only [condLoop, ← e1]
      cases hc : condScan m keys.length names j (keys.drop j) with
      | bad => exact ⟨rfl, nofun⟩
      | found v => exact ⟨rfl, fun w h => by cases h; exact h3 _ hc⟩
      | exhausted => exact ih _ hst
      | push i inner =>
        refine ih _ fun e he => ?_
        rcases List.mem_cons.1 he with rfl | he
        · exact ⟨rfl, condKeys_iff.1 (h2 _ _ hc)⟩
        · rcases List.mem_cons.1 he with rfl | he
          · exact ⟨hk, hm⟩
          · exact hst e he

theorem mapping_same (k : FieldKind) (remaining : Option Str) (sub : Bool) (n : Nat) :
    (∀ v : MV, v.AllKeys (SameName names names') →
      mapping k remaining sub names n v = mapping k remaining sub names' n v) ∧
    ∀ l, itemKeys (SameName names names') l →
      mappingArr k remaining sub names n l = mappingArr k remaining sub names' n l := by
  induction n with
  | zero => exact ⟨fun _ _ => rfl, fun _ _ => rfl⟩
  | succ n ih =>
    constructor
    · intro v hv
      cases v with
      | direct t => rfl
      | arr l => exact ih.2 l hv
      | cond m =>
        obtain ⟨h1, h2⟩ := condLoop_same (names := names) (names' := names') (2 * condSize m + 2)
          [(m, m.map (·.1), 0)] (fun e he => by
            rw [List.mem_singleton.1 he]
            exact ⟨rfl, condKeys_iff.1 hv⟩)
        have e1 : condMapping m names = condMapping m names' := h1
        simp only [mapping, ← e1]
        split
        · rfl
        · rfl
        · rfl
        · rename_i v h
          exact ih.1 v (h2 v h)
    · intro l hl
      cases l with
      | nil => rfl
      | cons v l => simp only [mappingArr, ih.1 v hl.1, ih.2 l hl.2]

theorem fieldProcess_same (k : FieldKind) {root : Node}
    (hr : root.Vals (MV.AllKeys (SameName names names'))) (t : Str) :
    fieldProcess k root t names = fieldProcess k root t names' := by
  unfold fieldProcess
  split
  · rfl
  · rename_i req _
    split
    · rfl
    · rename_i m idx h
      exact (mapping_same k _ _ _).1 m (findMatch_ok hr req m idx h)

end

/-! ## The stages -/

/-- Two contexts whose options are alike. -/
structure AlikeCtx (F : Fs → Prop) (c c' : Ctx) : Prop where
  opts : Alike F c.opts c'.opts
  fs : c'.fs = c.fs
  debug : c'.debug = c.debug
  load : c'.load = c.load
  known : F c.fs
  sat : ∀ p, (c.load p).Sat (HistG F) (HistR F) fun r => ∀ p, r = .ok (some p) → Origin F p

/-- A package, if any, from a file. -/
def PkgOrigin (F : Fs → Prop) (pkg : Option Pkg) : Prop := ∀ p, pkg = some p → Origin F p

section
variable {F : Fs → Prop} {c c' : Ctx}

local notation "Lk" => Prog.Lock (HistG F) (HistR F)

theorem AlikeCtx.tree (h : AlikeCtx F c c') {root : Node} (hr : TreeOf (.among F) root)
    (k : FieldKind) (t : Str) :
    fieldProcess k root t c.opts.conditionNames = fieldProcess k root t c'.opts.conditionNames := by
  obtain ⟨v, k', hv, hb⟩ := hr
  refine fieldProcess_same k (buildTree_keys (fun key hk => ?_) hb) t
  intro hd
  rcases hv with ⟨fs, hF, hv⟩ | ⟨fs, hF, hv⟩
  · exact h.opts.conditions fs v key hF (.inl hv) hk hd
  · exact h.opts.conditions fs v key hF (.inr hv) hk hd

theorem AlikeCtx.file (h : AlikeCtx F c c') : resolveAsFile c' = resolveAsFile c := by
  funext i
  unfold resolveAsFile extensionsPlugin
  simp only [h.fs, h.opts.enforceExtension, appendExt]
  rw [h.opts.extensions c.fs i.getPath h.known]

theorem AlikeCtx.pick (h : AlikeCtx F c c') : exportsPick c' = exportsPick c := by
  funext d l
  induction l with
  | nil => rfl
  | cons x l ih => simp only [exportsPick, h.fs, ih]

theorem AlikeCtx.exports (h : AlikeCtx F c c') {pkg : Option Pkg} (hp : PkgOrigin F pkg) (i : Info) :
    Lk (exportsPlugin c pkg i) (exportsPlugin c' pkg i) := by
  cases pkg with
  | none => exact .ret _
  | some pkg =>
    unfold exportsPlugin
    simp only
    split
    · exact .ret _
    · split
      · exact .ret _
      · split
        · exact .ret _
        · rename_i root hr
          have e1 : exportsRequestOf c' pkg i = exportsRequestOf c pkg i := by
            unfold exportsRequestOf
            simp only [h.fs]
          rw [e1, h.pick]
          have e2 := h.tree ((hp pkg rfl).exports root hr) .exports
          refine Prog.Lock.bind (Prog.Sat.lock_self (P := fun _ => True) ?_) fun a => ?_
          · unfold exportsRequestOf
            simp only
            split
            · trivial
            · split
              · trivial
              · split <;> trivial
          · cases a with
            | none => exact .ret _
            | some r =>
              simp only [← e2]
              split
              · exact .crash _
              · exact .ret _
              · split <;> exact .ret _

theorem AlikeCtx.aliasField (h : AlikeCtx F c c') (n : Nat) (pkg : Option Pkg) (i : Info) :
    Lk (aliasFieldPlugin c n pkg i) (aliasFieldPlugin c' n pkg i) := by
  unfold aliasFieldPlugin
  rw [h.opts.browserField]
  split
  · exact .ret _
  · rename_i hb
    have hx := (h.opts.browser (by simpa using hb)).1
    cases pkg with
    | none => exact .ret _
    | some pkg =>
      have e : ∀ key, aliasMatches c' pkg i key = aliasMatches c pkg i key := by
        intro key
        unfold aliasMatches aliasPathMatches
        have : (c'.opts.extensions.any fun ext => pathEq (pjoin pkg.absDir key) (appendExt i.getPath ext)) =
            c.opts.extensions.any fun ext => pathEq (pjoin pkg.absDir key) (appendExt i.getPath ext) := by
          rw [Bool.eq_iff_iff, List.any_eq_true, List.any_eq_true]
          exact ⟨fun ⟨x, h1, h2⟩ => ⟨x, (hx x).2 h1, h2⟩, fun ⟨x, h1, h2⟩ => ⟨x, (hx x).1 h1, h2⟩⟩
        rw [this]
      simp only [e]
      split
      · exact .ret _
      · split
        · exact .crash _
        · exact .ret _
        · exact .ret _

theorem AlikeCtx.loads (h : AlikeCtx F c c') {α : Type} (p : Str)
    {f g : Except Err (Option Pkg) → Prog α} (he : ∀ err, Lk (f (.error err)) (g (.error err)))
    (hf : ∀ pkg, PkgOrigin F pkg → Lk (f (.ok pkg)) (g (.ok pkg))) :
    Lk ((c.load p).bind f) ((c'.load p).bind g) := by
  rw [h.load]
  refine (h.sat p).lock fun r hr => ?_
  cases r with
  | error err => exact he err
  | ok pkg => exact hf pkg fun q hq => hr q (by rw [hq])

theorem AlikeCtx.imports (h : AlikeCtx F c c') (n : Nat) {pkg : Option Pkg} (hp : PkgOrigin F pkg)
    (i : Info) : Lk (importsPlugin c n pkg i) (importsPlugin c' n pkg i) := by
  induction n generalizing pkg i with
  | zero => exact .crash _
  | succ n ih =>
    cases pkg with
    | none => exact .ret _
    | some pkg =>
      have e0 : importsCheck c' = importsCheck c := by
        funext i t
        unfold importsCheck
        rw [h.fs]
      unfold importsPlugin
      simp only [e0]
      split
      · exact .ret _
      · split
        · exact .ret _
        · rename_i root hr
          simp only [← h.tree ((hp pkg rfl).imports root hr) .imports]
          split
          · exact .crash _
          · exact .ret _
          · exact .ret _
          · split
            · refine h.loads _ (fun _ => .ret _) fun pkg' hp' => ?_
              dsimp only
              split
              · exact .ret _
              · exact (h.exports hp' _).bind fun s => (Stats.lock_andThen (fun i => ih hp' i) s).bind fun s =>
                  (Stats.lock_andThen (fun i => h.aliasField n pkg' i) s).bind fun s =>
                  Stats.lock_andThen (fun i => .ret _) s
            · split
              · exact ih hp _
              · exact .ret _

theorem withTarget_twice (i : Info) (s t : Str) : (i.withTarget s).withTarget t = i.withTarget t := rfl

theorem mainFileLoop_cur (c : Ctx) (n : Nat) (pkg : Option Pkg) (info : Info) (l : List Str) (cur : Info)
    (t : Str) : mainFileLoop c n pkg info l (cur.withTarget t) = mainFileLoop c n pkg info l cur := by
  cases l with
  | nil => rfl
  | cons x l => rfl

theorem mainFileLoop_filter (c : Ctx) (n : Nat) (pkg : Option Pkg) (info : Info) (used : Str → Bool)
    (hb : c.opts.browserField = false) (hu : ∀ name, used name = false → NoMainFile c.opts c.fs name)
    (l : List Str) (cur : Info) :
    mainFileLoop c (n + 1) pkg info l cur = mainFileLoop c (n + 1) pkg info (l.filter used) cur := by
  induction l generalizing cur with
  | nil => rfl
  | cons x l ih =>
    cases hx : used x with
    | true =>
      rw [List.filter_cons_of_pos hx]
      simp only [mainFileLoop, ih]
    | false =>
      rw [List.filter_cons_of_neg (by simp [hx]), ← mainFileLoop_cur c (n + 1) pkg info (l.filter used) cur
        (cs!"./" ++ x), ← ih]
      have hk : (cur.withTarget (cs!"./" ++ x)).request.kind = .relative := by
        show getTargetKind (cs!"./" ++ x) = .relative
        simp [getTargetKind, startsWith]
      have h1 : exportsPlugin c pkg (cur.withTarget (cs!"./" ++ x)) =
          .ret (.resolving (cur.withTarget (cs!"./" ++ x))) := by
        cases pkg with
        | none => rfl
        | some pkg =>
          unfold exportsPlugin
          simp only [hk]
          rfl
      have h2 : importsPlugin c (n + 1) pkg (cur.withTarget (cs!"./" ++ x)) =
          .ret (.resolving (cur.withTarget (cs!"./" ++ x))) := by
        cases pkg with
        | none => rfl
        | some pkg => rfl
      have h3 : aliasFieldPlugin c (n + 1) pkg (cur.withTarget (cs!"./" ++ x)) =
          .ret (.resolving (cur.withTarget (cs!"./" ++ x))) := by
        unfold aliasFieldPlugin
        simp only [hb]
        rfl
      have hg : (cur.withTarget (cs!"./" ++ x)).getPath = pjoin cur.path (cs!"./" ++ x) := by
        simp [Info.getPath, Info.withTarget, Request.withTarget]
      obtain ⟨h4, h5⟩ := hu x hx cur.path
      have h6 : resolveAsFile c (cur.withTarget (cs!"./" ++ x)) =
          .resolving (cur.withTarget (cs!"./" ++ x)) := by
        unfold resolveAsFile extensionsPlugin
        simp only [hg]
        have e1 : (!(c.opts.enforceExtension.getD false) && c.fs.isFile (pjoin cur.path (cs!"./" ++ x))) =
            false := by
          rcases h4 with h4 | h4
          · simp [h4]
          · rw [h4, Bool.and_false]
        have e2 : (c.opts.extensions.find? fun ext =>
            c.fs.isFile (appendExt (pjoin cur.path (cs!"./" ++ x)) ext)) = none :=
          List.find?_eq_none.2 fun ext he => by
            have := h5 ext he
            simp only [appendExt, this]
            decide
        rw [if_neg (by rw [e1]; decide), e2]
      rw [mainFileLoop]
      simp only [h1, h2, h3, h6, Prog.ret_bind, Stats.andThen_resolving]

theorem AlikeCtx.mainFileLoop (h : AlikeCtx F c c') (n : Nat) {pkg : Option Pkg} (hp : PkgOrigin F pkg)
    (info : Info) (l : List Str) (cur : Info) :
    Lk (Verif.mainFileLoop c n pkg info l cur) (Verif.mainFileLoop c' n pkg info l cur) := by
  induction l generalizing cur with
  | nil => exact .ret _
  | cons x l ih =>
    simp only [Verif.mainFileLoop, h.file]
    refine Prog.Lock.bind ((h.exports hp _).bind fun s =>
      (Stats.lock_andThen (fun i => h.imports n hp i) s).bind fun s =>
      (Stats.lock_andThen (fun i => h.aliasField n pkg i) s).bind fun s =>
      Stats.lock_andThen (fun i => .ret _) s) fun s => ?_
    cases s with
    | success r => exact .ret _
    | resolving i => exact ih i
    | error e i => exact ih i

theorem AlikeCtx.mainFile (h : AlikeCtx F c c') (n : Nat) {pkg : Option Pkg} (hp : PkgOrigin F pkg)
    (info : Info) : Lk (mainFilePlugin c n pkg info) (mainFilePlugin c' n pkg info) := by
  unfold mainFilePlugin
  cases hb : c.opts.browserField with
  | true =>
    rw [← (h.opts.browser hb).2]
    exact h.mainFileLoop n hp info _ _
  | false =>
    cases n with
    | zero =>
      have crash : ∀ (c : Ctx) x l, Verif.mainFileLoop c 0 pkg info (x :: l) info = .crash .fuel := by
        intro c x l
        have h1 : exportsPlugin c pkg (info.withTarget (cs!"./" ++ x)) =
            .ret (.resolving (info.withTarget (cs!"./" ++ x))) := by
          have hk : (info.withTarget (cs!"./" ++ x)).request.kind = .relative := by
            show getTargetKind (cs!"./" ++ x) = .relative
            simp [getTargetKind, startsWith]
          cases pkg with
          | none => rfl
          | some pkg =>
            unfold exportsPlugin
            simp only [hk]
            rfl
        rw [Verif.mainFileLoop]
        simp only [h1, Prog.ret_bind, Stats.andThen_resolving]
        rfl
      cases h1 : c.opts.mainFiles with
      | nil =>
        rw [h.opts.someFile.1 h1]
        exact .ret _
      | cons x l =>
        cases h2 : c'.opts.mainFiles with
        | nil => rw [h.opts.someFile.2 h2] at h1; cases h1
        | cons y l' =>
          rw [crash, crash]
          exact .crash _
    | succ n =>
      obtain ⟨used, h1, h2⟩ := h.opts.mainFiles
      rw [mainFileLoop_filter c n pkg info used hb (fun x hx => h2 x hx _ h.known)]
      have e : Lk (Verif.mainFileLoop c (n + 1) pkg info (c.opts.mainFiles.filter used) info)
          (Verif.mainFileLoop c' (n + 1) pkg info (c.opts.mainFiles.filter used) info) :=
        h.mainFileLoop _ hp info _ _
      rw [h1] at e
      rw [mainFileLoop_filter c' n pkg info used (by rw [h.opts.browserField, hb]) (fun x hx d => ?_),
        h1]
      · exact e
      · obtain ⟨h3, h4⟩ := h2 x hx _ h.known d
        rw [h.opts.enforceExtension, h.fs]
        refine ⟨h3, fun ext he => ?_⟩
        have h5 := h.opts.extensions c.fs (pjoin d (cs!"./" ++ x)) h.known
        rw [List.find?_eq_none.2 fun ext he => by rw [h4 ext he]; decide] at h5
        exact Bool.eq_false_iff.2 (List.find?_eq_none.1 h5.symm ext he)

theorem mainFieldLoop_texts (c : Ctx) (n : Nat) (asDir : Info → Prog Stats) (pkg : Pkg) (info : Info) :
    ∃ g : List Str → Info → Prog Stats, ∀ l cur,
      mainFieldLoop c n asDir pkg info l cur = g (fieldTexts pkg.raw l) cur := by
  let g : List Str → Info → Prog Stats := fun l => l.rec (fun _ => .ret (.resolving info))
    fun mainField _ rest cur =>
      if mainField = cs!"." || mainField = cs!"./" then .ret (.resolving info)
      else
        ((aliasFieldPlugin c n (some pkg) (if startsWith mainField cs!"./" then cur.withTarget mainField
            else cur.withTarget (cs!"./" ++ mainField))).bind fun s =>
          (s.andThen fun i => .ret (resolveAsFile c i)).bind fun s =>
          s.andThen asDir).bind fun
        | .success r => .ret (.success r)
        | .resolving i => rest i
        | .error _ i => rest i
  refine ⟨g, fun l => ?_⟩
  induction l with
  | nil => intro cur; rfl
  | cons f l ih =>
    intro cur
    unfold mainFieldLoop
    cases hf : pkg.raw.get f with
    | none =>
      have : fieldTexts pkg.raw (f :: l) = fieldTexts pkg.raw l := by simp [fieldTexts, hf]
      rw [this]
      simp only [Option.bind_none]
      exact ih cur
    | some v =>
      cases v with
      | str s =>
        have : fieldTexts pkg.raw (f :: l) = s :: fieldTexts pkg.raw l := by simp [fieldTexts, hf]
        rw [this]
        simp only [Option.bind_some, Json.asStr, ih]
        rfl
      | _ =>
        have : fieldTexts pkg.raw (f :: l) = fieldTexts pkg.raw l := by simp [fieldTexts, hf]
        rw [this]
        simp only [Option.bind_some, Json.asStr]
        exact ih cur

theorem AlikeCtx.mainFieldLoop (h : AlikeCtx F c c') (n : Nat) {asDir asDir' : Info → Prog Stats}
    (hd : ∀ i, Lk (asDir i) (asDir' i)) (pkg : Pkg) (info : Info) (l : List Str) (cur : Info) :
    Lk (Verif.mainFieldLoop c n asDir pkg info l cur) (Verif.mainFieldLoop c' n asDir' pkg info l cur) := by
  induction l generalizing cur with
  | nil => exact .ret _
  | cons x l ih =>
    simp only [Verif.mainFieldLoop, h.file]
    split
    · exact ih cur
    · split
      · exact .ret _
      · refine Prog.Lock.bind ((h.aliasField n (some pkg) _).bind fun s =>
          (Stats.lock_andThen (fun i => .ret _) s).bind fun s => Stats.lock_andThen hd s) fun s => ?_
        cases s with
        | success r => exact .ret _
        | resolving i => exact ih i
        | error e i => exact ih i

theorem AlikeCtx.dir (h : AlikeCtx F c c') (n : Nat) (i : Info) :
    Lk (resolveAsDir c n i) (resolveAsDir c' n i) := by
  induction n generalizing i with
  | zero => exact .crash _
  | succ n ih =>
    unfold resolveAsDir
    simp only [h.fs]
    split
    · exact .ret _
    · refine h.loads _ (fun _ => .ret _) fun pkg hp => ?_
      refine Prog.Lock.bind ?_ fun s => Stats.lock_andThen (fun i => h.mainFile n hp i) s
      cases pkg with
      | none => exact .ret _
      | some pkg =>
        unfold mainFieldPlugin
        simp only
        split
        · exact .ret _
        · obtain ⟨fs, file, doc, h1, h2, h3⟩ := (hp pkg rfl).file
          obtain ⟨g, hg⟩ := mainFieldLoop_texts c' n (resolveAsDir c' n) pkg
            ((i.withPath i.getPath).withTarget [])
          rw [hg, ← h.opts.mainFields fs file doc pkg.raw h1 h2 h3, ← hg]
          exact h.mainFieldLoop n ih pkg _ _ _

theorem AlikeCtx.moduleStep (h : AlikeCtx F c c') (n : Nat) (i : Info) :
    Lk (Verif.moduleStep c n i) (Verif.moduleStep c' n i) := by
  unfold Verif.moduleStep
  simp only [h.fs, h.file]
  split
  · exact .ret _
  · split
    · exact .panic _
    · refine h.loads _ (fun _ => .ret _) fun pkg hp => ?_
      dsimp only
      split
      · split <;> exact .ret _
      · refine Prog.Lock.bind ?_ fun s => ?_
        · unfold modulePackageChain
          simp only [h.file]
          exact (h.exports hp _).bind fun s => (Stats.lock_andThen (fun i => h.imports n hp i) s).bind fun s =>
            (Stats.lock_andThen (fun i => h.aliasField n pkg _) s).bind fun s =>
            (Stats.lock_andThen (fun i => .ret _) s).bind fun s => Stats.lock_andThen (fun i => h.dir n i) s
        · cases s with
          | error e i => dsimp only; split <;> exact .ret _
          | success r => exact .ret _
          | resolving i => exact .ret _

theorem AlikeCtx.modules (h : AlikeCtx F c c') (n : Nat) (i : Info) :
    Lk (resolveAsModules c n i) (resolveAsModules c' n i) := by
  induction n generalizing i with
  | zero => exact .crash _
  | succ n ih =>
    unfold resolveAsModules
    refine (h.moduleStep n i).bind fun sb => ?_
    obtain ⟨s, b⟩ := sb
    cases b with
    | true => exact .ret _
    | false =>
      refine Prog.Lock.bind (Stats.lock_andThen (fun i => ?_) s) fun s => ?_
      · split
        · exact ih _
        · exact .ret _
      · cases s <;> exact .ret _

theorem AlikeCtx.aliasLoop (info : Info) {rec rec' : Info → Prog Stats} (hr : ∀ i, Lk (rec i) (rec' i))
    (l : List (Str × AliasMap)) : Lk (Verif.aliasLoop rec info l) (Verif.aliasLoop rec' info l) := by
  induction l with
  | nil => exact .ret _
  | cons x l ih =>
    obtain ⟨k, to⟩ := x
    unfold Verif.aliasLoop
    simp only
    split
    · split
      · split
        · exact ih
        · refine (hr _).bind fun s => ?_
          cases s with
          | success r => exact .ret _
          | resolving i => exact ih
          | error e i => exact ih
      · exact .ret _
    · exact ih

theorem AlikeCtx.inner (h : AlikeCtx F c c') (n : Nat) (i : Info) :
    Lk (resolveInner c n i) (resolveInner c' n i) := by
  induction n generalizing i with
  | zero => exact .crash _
  | succ n ih =>
    unfold resolveInner
    refine Prog.Lock.bind (Prog.Lock.bind ?_ fun s => Prog.Lock.bind (Stats.lock_andThen (fun i => ?_) s)
      fun s => Prog.Lock.bind (Stats.lock_andThen (fun i => ?_) s)
      fun s => Stats.lock_andThen (fun i => ?_) s) fun s => ?_
    · unfold aliasPlugin
      rw [h.opts.alias]
      split
      · exact .ret _
      · exact AlikeCtx.aliasLoop i ih _
    · unfold preferRelativePlugin
      rw [h.opts.preferRelative]
      split
      · exact .ret _
      · split
        · refine (ih _).bind fun s => ?_
          cases s <;> exact .ret _
        · exact .ret _
    · unfold pkgStage
      simp only
      refine h.loads _ (fun _ => .ret _) fun pkg hp => ?_
      exact (h.imports n hp i).bind fun s => Stats.lock_andThen (fun i => h.aliasField n pkg i) s
    · unfold lastStage
      rw [h.file]
      split
      · exact Stats.lock_andThen (fun i => h.dir n i) _
      · exact Stats.lock_andThen (fun i => h.dir n i) _
      · exact Stats.lock_andThen (fun i => h.dir n i) _
      · exact h.modules n i
    · cases s with
      | success r => exact .ret _
      | error e i => exact .ret _
      | resolving i => exact .panic _

theorem AlikeCtx.tsValue (h : AlikeCtx F c c') (n : Nat) (location : Str) :
    Lk (Verif.tsValue c n location) (Verif.tsValue c' n location) := by
  induction n generalizing location with
  | zero => exact .crash _
  | succ n ih =>
    unfold Verif.tsValue
    rw [h.fs]
    split
    · exact .ret _
    · split
      · exact .ret _
      · exact .panic _
      · split
        · split
          · exact .panic _
          · refine (h.inner n _).bind fun s => ?_
            cases s with
            | error e i => exact .ret _
            | resolving i => exact .ret _
            | success r =>
              cases r with
              | ignored => exact .ret _
              | info i =>
                refine (ih _).bind fun r => ?_
                cases r <;> exact .ret _
        · exact .ret _

theorem AlikeCtx.tsEntries {rec rec' : Info → Prog Stats} (hr : ∀ i, Lk (rec i) (rec' i)) (info : Info)
    (l : List (Str × List Str)) : Lk (Verif.tsEntries rec info l) (Verif.tsEntries rec' info l) := by
  induction l with
  | nil => exact hr _
  | cons x l ih =>
    obtain ⟨pattern, paths⟩ := x
    unfold Verif.tsEntries
    simp only
    split
    · exact .panic _
    · exact ih
    · rename_i s _
      induction paths with
      | nil => exact ih
      | cons p paths ihp =>
        refine (hr _).bind fun s => ?_
        cases s with
        | success r => exact .ret _
        | resolving i => exact ihp
        | error e i => exact ihp

theorem AlikeCtx.resolve (h : AlikeCtx F c c') (n : Nat) (path request : Str) :
    Lk (resolveCtx c n path request) (resolveCtx c' n path request) := by
  unfold resolveCtx
  refine Prog.Lock.bind ?_ fun s => ?_
  · unfold resolveStats
    rw [h.opts.tsconfig]
    simp only
    split
    · unfold resolveWithTsconfig
      refine (h.tsValue n _).bind fun r => ?_
      cases r with
      | error e => exact .ret _
      | ok json =>
        dsimp only
        split
        · exact .panic _
        · split
          · exact .panic _
          · exact .op trivial fun r _ => AlikeCtx.tsEntries (h.inner n) _ _
    · exact h.inner n _
  · cases s with
    | error e i => exact .ret _
    | resolving i => exact .panic _
    | success r =>
      have e : normalizeResult c' r = normalizeResult c r := by
        unfold normalizeResult normalizePath
        rw [h.debug, h.opts.symlinks, h.fs]
      dsimp only
      rw [e]
      refine Prog.Sat.lock_self (P := fun _ => True) ?_
      unfold normalizeResult
      split
      · split
        · trivial
        · split <;> trivial
      · trivial

end

/-! ## Histories -/

/-- Two tasks that run in lock-step. -/
structure TaskLock (F : Fs → Prop) (t t' : Task) : Prop where
  rid : t'.rid = t.rid
  fs : t'.fs = t.fs
  call : t'.call = t.call
  fuel : t'.fuel = t.fuel
  prog : t.prog.Lock (HistG F) (HistR F) t'.prog

/-- Two states of systems that run in lock-step. -/
structure LockStep (F : Fs → Prop) (s s' : Sys) : Prop where
  shared : s'.shared = s.shared
  fs : s'.fs = s.fs
  caches : HistJ F s.shared
  known : F s.fs
  length : s.tasks.length = s'.tasks.length
  tasks : ∀ (i : Nat) t t', s.tasks[i]? = some t → s'.tasks[i]? = some t' → TaskLock F t t'

section
variable {F : Fs → Prop} {cfg cfg' : Nat → Config} {ser : Json → Str}

theorem call_lock {a b : Config} (h : AlikeCfg F a b) {fs : Fs} (hF : F fs) (call : Call) (fuel : Nat) :
    (call.prog (a.env ser fs) fuel).Lock (HistG F) (HistR F) (call.prog (b.env ser fs) fuel) := by
  obtain ⟨h1, -, h3, h4⟩ := h
  have hl : loadPkg (b.env ser fs) = loadPkg (a.env ser fs) := by
    have e : b.env ser fs = { a.env ser fs with opts := b.opts } := by
      simp only [Config.env, h3, h4]
    rw [e]
    exact loadPkg_opts _ _ h1.descriptionFile
  have hs : ∀ p, (loadPkg (a.env ser fs) p).Sat (HistG F) (HistR F)
      fun r => ∀ p, r = .ok (some p) → Origin F p := fun p =>
    (loadPkg_hist (a.env ser fs) hF p).mono fun r hr q hq => (hr q hq).2
  cases call with
  | resolve path request =>
    refine Prog.Lock.bind (AlikeCtx.resolve (c := (a.env ser fs).ctx) (c' := (b.env ser fs).ctx)
      ⟨h1, rfl, h3, hl, hF, hs⟩ fuel path request) fun _ => .ret _
  | sideEffects path =>
    refine Prog.Lock.bind ?_ fun _ => .ret _
    unfold loadSideEffects
    rw [hl]
    refine (hs path).lock fun r _ => ?_
    have hd : (b.env ser fs).opts.descriptionFile = (a.env ser fs).opts.descriptionFile :=
      h1.descriptionFile
    cases r with
    | error e => exact .ret _
    | ok pkg =>
      cases pkg with
      | none => exact .ret _
      | some pkg =>
        simp only [hd]
        split
        · exact .panic _
        · exact .ret _

theorem LockStep.next (h : ∀ rid, AlikeCfg F (cfg rid) (cfg' rid)) {s s' : Sys} (hs : LockStep F s s')
    (e : Event) (he : ∀ fs, e = .change fs → F fs) :
    LockStep F (s.next cfg ser e) (s'.next cfg' ser e) := by
  cases e with
  | start rid call fuel =>
    refine ⟨hs.shared, hs.fs, hs.caches, hs.known, ?_, fun i t t' h1 h2 => ?_⟩
    · simp only [Sys.next, List.length_append, hs.length, List.length_singleton]
    · simp only [Sys.next, List.getElem?_append, ← hs.length] at h1 h2
      split at h1
      · rename_i hi
        rw [if_pos hi] at h2
        exact hs.tasks i t t' h1 h2
      · rename_i hi
        rw [if_neg hi] at h2
        generalize i - s.tasks.length = j at h1 h2
        cases j with
        | succ j => cases h1
        | zero =>
          cases h1
          cases h2
          exact ⟨rfl, hs.fs, rfl, rfl, by rw [hs.fs]; exact call_lock (h rid) hs.known call fuel⟩
  | change fs => exact ⟨hs.shared, rfl, hs.caches, he fs rfl, hs.length, hs.tasks⟩
  | step i seed =>
    unfold Sys.next
    simp only
    cases h1 : s.tasks[i]? with
    | none =>
      have : s'.tasks[i]? = none := by
        rw [List.getElem?_eq_none_iff, ← hs.length, ← List.getElem?_eq_none_iff]
        exact h1
      rw [this]
      exact hs
    | some t =>
      have hi : i < s'.tasks.length := by
        rw [← hs.length]
        exact (List.getElem?_eq_some_iff.1 h1).1
      have h2 : s'.tasks[i]? = some s'.tasks[i] := List.getElem?_eq_getElem hi
      generalize s'.tasks[i] = t' at h2
      rw [h2]
      have ht := hs.tasks i t t' h1 h2
      have hp := ht.prog
      simp only
      generalize hq : t.prog = p at hp
      generalize hq' : t'.prog = p' at hp
      cases hp with
      | ret a => exact hs
      | crash c => exact hs
      | @op o k k' hg hk =>
        simp only
        have hc : (cfg' t.rid).cache = (cfg t.rid).cache := (h t.rid).2.1
        have hv : s'.shared.view cfg' t'.rid (fun _ => seed) = s.shared.view cfg t.rid fun _ => seed := by
          rw [hs.shared]
          simp only [Shared.view, hc, ht.rid]
        obtain ⟨h3, h4⟩ := hist_step (cfg := cfg) s.shared t.rid o (fun _ => seed) hs.caches hg
        rw [hv]
        refine ⟨?_, hs.fs, h3, hs.known, ?_, fun j u u' h5 h6 => ?_⟩
        · rw [hs.shared]
          simp only [Shared.store, hc, ht.rid]
        · simp only [List.length_set, hs.length]
        · rw [List.getElem?_set] at h5 h6
          rw [← hs.length] at h6
          split at h5
          · rename_i hij
            rw [if_pos hij] at h6
            split at h5
            · rename_i hlt
              rw [if_pos hlt] at h6
              cases h5
              cases h6
              exact ⟨ht.rid, ht.fs, ht.call, ht.fuel, hk _ h4⟩
            · cases h5
          · rename_i hij
            rw [if_neg hij] at h6
            exact hs.tasks j u u' h5 h6

theorem lockStep_after (h : ∀ rid, AlikeCfg F (cfg rid) (cfg' rid)) (l : List Event)
    (hl : ∀ fs, .change fs ∈ l → F fs) {s s' : Sys} (hs : LockStep F s s') :
    LockStep F (s.after cfg ser l) (s'.after cfg' ser l) := by
  induction l generalizing s s' with
  | nil => exact hs
  | cons e l ih =>
    exact ih (fun fs h => hl fs (List.mem_cons_of_mem _ h))
      (hs.next h e fun fs he => hl fs (he ▸ List.mem_cons_self ..))

end

end Verif
