import Verif.Spec.Halts
import Verif.Proofs.Termination
import Verif.Proofs.LiveSpin
import Verif.Proofs.LiveHistory
/-!
# Coming to an end while files change

`Halting A G R Q P`: `P n` is the call with fuel `n`. If all answers are as in `A` and `R`, then with enough fuel the
call is always the same: a tree of looks and operations (the latter as in `G`) that ends with a value as in `Q` or with
a panic.
-/

namespace Verif.Live

/-- See the file comment. -/
inductive Halting {α : Type} (A : (q : Query) → q.Ret → Prop) (G : Op → Prop) (R : (o : Op) → o.Ret → Prop)
    (Q : α → Prop) : (Nat → Live α) → Prop where
  | done {P : Nat → Live α} (N : Nat) (a : α) : (∀ n, N ≤ n → P n = .ret a) → Q a → Halting A G R Q P
  | stop {P : Nat → Live α} (N : Nat) (s : Site) : (∀ n, N ≤ n → P n = .crash (.panic s)) → Halting A G R Q P
  | ask {P : Nat → Live α} (N : Nat) (q : Query) (K : Nat → q.Ret → Live α) :
      (∀ n, N ≤ n → P n = .ask q (K n)) → (∀ r, A q r → Halting A G R Q fun n => K n r) → Halting A G R Q P
  | op {P : Nat → Live α} (N : Nat) (o : Op) (K : Nat → o.Ret → Live α) :
      (∀ n, N ≤ n → P n = .op o (K n)) → G o → (∀ r, R o r → Halting A G R Q fun n => K n r) → Halting A G R Q P

section
variable {α β : Type} {A : (q : Query) → q.Ret → Prop} {G : Op → Prop} {R : (o : Op) → o.Ret → Prop}
  {Q : α → Prop} {P : Nat → Live α}

theorem Halting.ret {a : α} (h : Q a) : Halting A G R Q fun _ => .ret a := .done 0 a (fun _ _ => rfl) h

theorem Halting.panic (s : Site) : Halting A G R Q fun _ => .crash (.panic s) := .stop 0 s fun _ _ => rfl

theorem Halting.of_eq {P' : Nat → Live α} (h : Halting A G R Q P) (M : Nat) (e : ∀ n, M ≤ n → P' n = P n) :
    Halting A G R Q P' := by
  cases h with
  | done N a h hQ => exact .done (max N M) a (fun n hn => by rw [e n (by omega), h n (by omega)]) hQ
  | stop N s h => exact .stop (max N M) s fun n hn => by rw [e n (by omega), h n (by omega)]
  | ask N q K h hk => exact .ask (max N M) q K (fun n hn => by rw [e n (by omega), h n (by omega)]) hk
  | op N o K h hG hk => exact .op (max N M) o K (fun n hn => by rw [e n (by omega), h n (by omega)]) hG hk

theorem Halting.bind {Q' : β → Prop} {f : Nat → α → Live β} (h : Halting A G R Q P)
    (hf : ∀ a, Q a → Halting A G R Q' fun n => f n a) : Halting A G R Q' fun n => (P n).bind (f n) := by
  induction h with
  | done N a h hQ => exact (hf a hQ).of_eq N fun n hn => by rw [h n hn]; rfl
  | stop N s h => exact .stop N s fun n hn => by rw [h n hn]; rfl
  | ask N q K h _ ih =>
    exact .ask N q (fun n r => (K n r).bind (f n)) (fun n hn => by rw [h n hn]; rfl) fun r hr => ih r hr
  | op N o K h hG _ ih =>
    exact .op N o (fun n r => (K n r).bind (f n)) (fun n hn => by rw [h n hn]; rfl) hG fun r hr => ih r hr

theorem Halting.mono {Q' : α → Prop} (h : Halting A G R Q P) (hQ : ∀ a, Q a → Q' a) : Halting A G R Q' P := by
  induction h with
  | done N a h h' => exact .done N a h (hQ a h')
  | stop N s h => exact .stop N s h
  | ask N q K h _ ih => exact .ask N q K h ih
  | op N o K h hG _ ih => exact .op N o K h hG ih

theorem Halting.later (h : Halting A G R Q P) : Halting A G R Q fun n => P (n - 1) := by
  induction h with
  | done N a h h' => exact .done (N + 1) a (fun n hn => h _ (by omega)) h'
  | stop N s h => exact .stop (N + 1) s fun n hn => h _ (by omega)
  | ask N q K h _ ih => exact .ask (N + 1) q (fun n r => K (n - 1) r) (fun n hn => h _ (by omega)) ih
  | op N o K h hG _ ih => exact .op (N + 1) o (fun n r => K (n - 1) r) (fun n hn => h _ (by omega)) hG ih

theorem Halting.succ (h : Halting A G R Q fun n => P (n + 1)) : Halting A G R Q P :=
  h.later.of_eq 1 fun n hn => by rw [show n - 1 + 1 = n by omega]

theorem Halting.strong (h : Halting A G R Q P) :
    Halting A G R (fun a => Q a ∧ ∃ n, Ends A R (P n) (.done a)) P := by
  have key : Halting A G R (fun a => Q a ∧ ∃ N, ∀ n, N ≤ n → Ends A R (P n) (.done a)) P := by
    induction h with
    | done N a h h' => exact .done N a h ⟨h', N, fun n hn => by rw [h n hn]; exact .ret a⟩
    | stop N s h => exact .stop N s h
    | ask N q K h _ ih =>
      refine .ask N q K h fun r hr => (ih r hr).mono fun a ⟨h1, M, h2⟩ => ⟨h1, max N M, fun n hn => ?_⟩
      rw [h n (by omega)]
      exact .ask r hr (h2 n (by omega))
    | op N o K h hG _ ih =>
      refine .op N o K h hG fun r hr => (ih r hr).mono fun a ⟨h1, M, h2⟩ => ⟨h1, max N M, fun n hn => ?_⟩
      rw [h n (by omega)]
      exact .op r hr (h2 n (by omega))
  exact key.mono fun a ⟨h1, N, h2⟩ => ⟨h1, N, h2 N (Nat.le_refl _)⟩

theorem settled_isFile {p : Str} {f : Nat → Bool → Live α}
    (h : ∀ b, A (.isFile p) b → Halting A G R Q fun n => f n b) : Halting A G R Q fun n => (isFile p).bind (f n) :=
  .ask 0 (.isFile p) (fun n r => f n r) (fun _ _ => rfl) h

theorem settled_isDir {p : Str} {f : Nat → Bool → Live α}
    (h : ∀ b, A (.isDir p) b → Halting A G R Q fun n => f n b) : Halting A G R Q fun n => (isDir p).bind (f n) :=
  .ask 0 (.isDir p) (fun n r => f n r) (fun _ _ => rfl) h

theorem settled_exists {p : Str} {f : Nat → Bool → Live α}
    (h : ∀ b, A (.pathExists p) b → Halting A G R Q fun n => f n b) :
    Halting A G R Q fun n => (pathExists p).bind (f n) :=
  .ask 0 (.pathExists p) (fun n r => f n r) (fun _ _ => rfl) h

theorem Sat.both {C C' : Crash → Prop} {G' : Op → Prop} {R' : (o : Op) → o.Ret → Prop} {Q' : α → Prop} {p : Live α}
    (h : p.Sat A G R C Q) (h' : p.Sat A G' R' C' Q') :
    p.Sat A (fun o => G o ∧ G' o) (fun o r => R o r ∧ R' o r) (fun c => C c ∧ C' c) (fun a => Q a ∧ Q' a) := by
  induction p with
  | ret a => exact ⟨h, h'⟩
  | crash c => exact ⟨h, h'⟩
  | ask q k ih => exact fun r hr => ih r (h r hr) (h' r hr)
  | op o k ih => exact ⟨⟨h.1, h'.1⟩, fun r hr => ih r (h.2 r hr.1) (h'.2 r hr.2)⟩

theorem Sat.loosen {C C' : Crash → Prop} {A' : (q : Query) → q.Ret → Prop} {G' : Op → Prop}
    {R' : (o : Op) → o.Ret → Prop} {p : Live α}
    (h : p.Sat A G R C Q) (hA : ∀ q r, A' q r → A q r) (hG : ∀ o, G o → G' o) (hR : ∀ o r, R' o r → R o r)
    (hC : ∀ c, C c → C' c) : p.Sat A' G' R' C' Q := by
  induction p with
  | ret a => exact h
  | crash c => exact hC c h
  | ask q k ih => exact fun r hr => ih r (h r (hA _ _ hr))
  | op o k ih => exact ⟨hG _ h.1, fun r hr => ih r (h.2 r (hR _ _ hr))⟩

/-! ## Programs that differ where one of them gives up -/

/-- `q` is `p`, but may go on where `p` gives up. -/
inductive Upto : Live α → Live α → Prop where
  | ret (a : α) : Upto (.ret a) (.ret a)
  | crash (c : Crash) : Upto (.crash c) (.crash c)
  | stop {c : Crash} (q : Live α) : (∀ s, c ≠ .panic s) → Upto (.crash c) q
  | ask (q : Query) {k k' : q.Ret → Live α} : (∀ r, Upto (k r) (k' r)) → Upto (.ask q k) (.ask q k')
  | op (o : Op) {k k' : o.Ret → Live α} : (∀ r, Upto (k r) (k' r)) → Upto (.op o k) (.op o k')

theorem Upto.refl (p : Live α) : Upto p p := by
  induction p with
  | ret a => exact .ret a
  | crash c => exact .crash c
  | ask q k ih => exact .ask q ih
  | op o k ih => exact .op o ih

theorem Upto.bind {p q : Live α} {f g : α → Live β} (h : Upto p q) (hf : ∀ a, Upto (f a) (g a)) :
    Upto (p.bind f) (q.bind g) := by
  induction h with
  | ret a => exact hf a
  | crash c => exact .crash c
  | stop q hc => exact .stop _ hc
  | ask q _ ih => exact .ask q ih
  | op o _ ih => exact .op o ih

theorem Halting.of_sat {p : Live α} {C : Crash → Prop} (h : p.Sat A G R C Q) (hC : ∀ c, C c → ∃ s, c = .panic s)
    (hP : ∀ n, Upto p (P n)) : Halting A G R Q P := by
  induction p generalizing P with
  | ret a =>
    refine .done 0 a (fun n _ => ?_) h
    have := hP n
    generalize P n = x at this
    cases this
    rfl
  | crash c =>
    obtain ⟨s, rfl⟩ := hC c h
    refine .stop 0 s fun n _ => ?_
    have := hP n
    generalize P n = x at this
    cases this with
    | crash => rfl
    | stop _ h => exact absurd rfl (h s)
  | ask q k ih =>
    have : ∀ n, ∃ k', P n = .ask q k' ∧ ∀ r, Upto (k r) (k' r) := fun n => by
      have := hP n
      generalize P n = x at this
      cases this with
      | ask _ h => exact ⟨_, rfl, h⟩
    exact .ask 0 q (fun n => (this n).choose) (fun n _ => (this n).choose_spec.1) fun r hr =>
      ih r (h r hr) fun n => (this n).choose_spec.2 r
  | op o k ih =>
    have : ∀ n, ∃ k', P n = .op o k' ∧ ∀ r, Upto (k r) (k' r) := fun n => by
      have := hP n
      generalize P n = x at this
      cases this with
      | op _ h => exact ⟨_, rfl, h⟩
    exact .op 0 o (fun n => (this n).choose) (fun n _ => (this n).choose_spec.1) h.1 fun r hr =>
      ih r (h.2 r hr) fun n => (this n).choose_spec.2 r

theorem Halting.of_const {p : Live α} {C : Crash → Prop} (h : p.Sat A G R C Q) (hC : ∀ c, C c → ∃ s, c = .panic s) :
    Halting A G R Q fun _ => p := .of_sat h hC fun _ => .refl _

end

section
variable {c : Config} {ser : Json → Str}

theorem cacheNone_upto {n m : Nat} (h : n ≤ m) (path : Str) : Upto (cacheNone n path) (cacheNone m path) := by
  induction n generalizing m path with
  | zero => exact .stop _ nofun
  | succ n ih =>
    obtain ⟨m, rfl⟩ : ∃ k, m = k + 1 := ⟨m - 1, by omega⟩
    rw [cacheNone, cacheNone]
    refine (Upto.refl _).bind fun dir => ?_
    cases dir with
    | false => exact ih (by omega) _
    | true =>
      refine .op _ fun _ => ?_
      split
      · exact ih (by omega) _
      · exact .refl _

theorem loadPkgAux_upto {s s' : Nat} (hs : s ≤ s') {n m : Nat} (h : n ≤ m) (path : Str) :
    Upto (loadPkgAux (host c ser s) n path) (loadPkgAux (host c ser s') m path) := by
  induction n generalizing m path with
  | zero => exact .stop _ nofun
  | succ n ih =>
    obtain ⟨m, rfl⟩ : ∃ k, m = k + 1 := ⟨m - 1, by omega⟩
    rw [loadPkgAux, loadPkgAux]
    show Upto (match c.opts.descriptionFile with | none => _ | some desc => _)
      (match c.opts.descriptionFile with | none => _ | some desc => _)
    cases c.opts.descriptionFile with
    | none => exact .refl _
    | some desc =>
      refine (Upto.refl _).bind fun dir => ?_
      cases dir with
      | false =>
        cases pparent path with
        | none => exact .refl _
        | some dir => exact ih (by omega) _
      | true =>
        refine .op _ fun r => ?_
        cases r with
        | some cached => exact .refl _
        | none =>
          refine (Upto.refl _).bind fun file => ?_
          cases file with
          | true => exact .refl _
          | false =>
            refine (Upto.refl _).bind fun r => ?_
            cases r with
            | some dir => exact ih (by omega) _
            | none => exact cacheNone_upto (by show _ + s ≤ _ + s'; omega) _

theorem loadPkg_upto (s : Nat) (path : Str) : Upto (loadPkg (host c ser 0) path) (loadPkg (host c ser s) path) :=
  loadPkgAux_upto (Nat.zero_le _) (by show _ + 0 ≤ _ + s; omega) path

end

/-! ## The loader -/

/-- The package was read from a file in its directory. -/
def ReadAt (V : Fs → Prop) (p : Pkg) : Prop :=
  ∃ fs name doc, V fs ∧ fs.read (pjoin p.absDir name) = some doc ∧ doc.json = some p.raw

/-- Packages are stored under their directory, and were read from a file there. -/
abbrev AtQ (V : Fs → Prop) (key : List Comp) (p : Pkg) : Prop := comps p.absDir = key ∧ ReadAt V p

/-- What may be stored. -/
def HaltG (V : Fs → Prop) (o : Op) : Prop := HistG V o ∧ StoreG (AtQ V) o

/-- What may be answered. -/
def HaltR (V : Fs → Prop) (o : Op) (r : o.Ret) : Prop := HistR V o r ∧ StoreR (AtQ V) o r

/-- What is known of a package. -/
structure KnownFrom (V : Fs → Prop) (p : Pkg) : Prop where
  origin : Origin V p
  read : ReadAt V p
  abs : isAbs p.absDir = true

/-- What is known of the package of a stage. -/
def KnownPkg (V : Fs → Prop) (pkg : Option Pkg) : Prop := ∀ p, pkg = some p → KnownFrom V p

theorem KnownFrom.among {V : Fs → Prop} {p : Pkg} (h : KnownFrom V p) : ReadAmong V p := ⟨h.read, h.origin.browser⟩

theorem haltR_cached {V : Fs → Prop} (o : Op) (r : o.Ret) (h : HaltR V o r) : CachedAmong V o r := by
  cases o with
  | getPkg d => exact fun p hp => ⟨(h.1 p hp).1, (h.2 p hp).2, (h.1 p hp).2.browser⟩
  | _ => trivial

section
variable {h : Host} {V : Fs → Prop}

theorem load_at (path : Str) :
    (loadPkg h path).Sat (Among V) (StoreG (AtQ V)) (StoreR (AtQ V)) (fun _ => True) fun r =>
      ∀ p, r = .ok (some p) → Above p.absDir path ∧ ReadAt V p := by
  refine (loadAux_sat (fun o ho => ?_) (fun _ _ => trivial) (fun _ => trivial) trivial (fun _ => True)
    (fun _ _ _ _ => trivial) (fun _ _ _ => cacheNone_sat (fun _ _ => trivial) trivial _ _)
    (fun d p => AtQ V (comps d) p) ?_ (fun d p _ h => h p rfl) _ path trivial).mono
    fun r hr p hp => ?_
  · cases o <;> first | trivial | exact ho.elim
  · rintro desc d p _ _ ⟨doc, ⟨fs, hF, h1⟩, hp⟩
    have : AtQ V (comps d) p := by
      refine ⟨by rw [hp.dir], fs, desc, doc, hF, by rw [hp.dir]; exact h1, ?_⟩
      obtain ⟨doc', h2, h3⟩ := hp.read
      cases h2
      exact h3
    exact ⟨this, this⟩
  · obtain ⟨d, h1, -, h2, h3⟩ := hr.1 p hp
    exact ⟨(Above.of_comps h2).trans h1, h3⟩

theorem prog_at (h : Host) (fuel : Nat) (call : Call) :
    (Live.prog h fuel call).Sat (Among V) (StoreG (AtQ V)) (StoreR (AtQ V)) (fun _ => True) fun _ => True := by
  have hI : Inv h (Among V) (StoreG (AtQ V)) (StoreR (AtQ V)) (fun _ => True) (fun _ => True) (fun _ => True)
      (fun _ => True) (fun _ => True) (fun _ => True) True :=
    { load := fun p _ => (load_at p).mono fun _ _ => ⟨fun _ _ => trivial, fun _ _ => trivial⟩
      errTag := trivial
      errPkg := fun _ _ => .of_all (fun _ => trivial) (fun _ _ _ _ _ => trivial) fun _ _ _ _ _ => trivial
      ask := fun _ _ => trivial
      askModule := fun _ _ => trivial
      pathGet := fun _ _ => trivial
      pathPkg := fun _ _ _ _ => trivial
      pathModule := fun _ _ => trivial
      pathParent := fun _ _ _ _ _ _ => trivial
      target := fun _ _ _ => trivial
      file := fun _ _ => resolveAsFile_sat trivial fun _ _ _ _ => trivial
      exports := fun _ _ _ _ => trivial
      imports := fun _ _ _ _ => ⟨trivial, trivial⟩
      panics := fun _ _ => trivial
      fuel := trivial }
  cases call with
  | resolve path request =>
    unfold Live.prog
    refine Sat.bind (P := fun _ => True) ?_ fun _ _ => trivial
    unfold resolve
    refine Sat.bind (stats_sat hI fuel path request trivial fun _ _ =>
      ⟨trivial, .of_all ⟨fun _ => trivial, fun _ _ => trivial, fun _ _ => trivial⟩,
        ⟨fun _ => True, trivial, fun _ _ _ _ _ => trivial, fun _ _ => trivial⟩,
        fun _ _ _ _ _ => trivial⟩) fun s hs => ?_
    cases s with
    | error err j => trivial
    | resolving j => trivial
    | success r => exact (normalizeResult_was r fun _ _ _ => trivial).mono fun _ _ => trivial
  | sideEffects path =>
    unfold Live.prog
    refine Sat.bind (P := fun _ => True) ?_ fun _ _ => trivial
    unfold loadSideEffects
    refine Sat.bind (load_at path) fun s _ => ?_
    rcases s with e | (_ | pkg)
    · trivial
    · trivial
    · dsimp only
      split <;> trivial

/-- Every call stores packages made from files, if it finds them so. -/
theorem prog_halt (h : Host) (fuel : Nat) (call : Call) :
    (Live.prog h fuel call).Sat (Among V) (HaltG V) (HaltR V) (fun _ => True) fun _ => True :=
  ((prog_hist h fuel call).both (prog_at h fuel call)).loosen (fun _ _ h => h) (fun _ h => h) (fun _ _ h => h)
    (fun _ _ => trivial) |>.mono fun _ _ => trivial

end

/-- The files when the call is in progress: `W`. Directories and places of description files stay. -/
structure Setting (c : Config) (V W : Fs → Prop) (D F : Str → Bool) : Prop where
  sub : ∀ fs, W fs → V fs
  layout : ∀ fs, W fs → Layout c.opts.descriptionFile D F fs
  up : ∀ p q, isAbs p = true → D p = true → pparent p = some q → D q = true
  calm : NoCycleAmong c.opts V

section
variable {c : Config} {ser : Json → Str} {V W : Fs → Prop} {D F : Str → Bool}

theorem load_known (hs : Setting c V W D F) (s : Nat) {path : Str} (ha : isAbs path = true) :
    (loadPkg (host c ser s) path).Sat (Among W) (HaltG V) (HaltR V) (fun c => ∃ s, c = .panic s) fun r =>
      ∀ pkg, r = .ok pkg → KnownPkg V pkg := by
  have hD : DirsStay (Among W) D := ⟨fun p b hp ⟨fs, h1, h2⟩ => by
    rw [← h2]; exact (hs.layout fs h1).isDir p hp, hs.up⟩
  have h1 : (loadPkg (host c ser s) path).Sat (Among W) (fun _ => True) (fun _ _ => True)
      (fun c => c ≠ .hang ∧ c ≠ .fuel) (fun _ => True) := by
    unfold loadPkg
    cases hd : c.opts.descriptionFile with
    | none =>
      show Sat _ _ _ _ _ (loadPkgAux (host c ser s) (path.length + 1 + s) path)
      rw [show path.length + 1 + s = (path.length + s) + 1 by omega, loadPkgAux,
        show (host c ser s).opts.descriptionFile = none from hd]
      trivial
    | some desc =>
      refine loadAux_ends (F := F) hD (show (host c ser s).opts.descriptionFile = some desc from hd)
        (fun d b hd' ⟨fs, h1, h2⟩ => ?_) _ path ha (by omega)
      rw [← h2]
      exact (hs.layout fs h1).isFile d desc hd hd'
  have h2 := ((load_hist (h := host c ser s) (F := V) path).both (load_at path)).loosen
    (A' := Among W) (G' := HaltG V) (R' := HaltR V) (C' := fun _ => True)
    (fun q r ⟨fs, h3, h4⟩ => ⟨fs, hs.sub fs h3, h4⟩) (fun _ h => h) (fun _ _ h => h) (fun _ _ => trivial)
  refine ((h1.both h2).loosen (fun _ _ h => h) (fun _ h => h.2) (fun _ _ h => ⟨trivial, h⟩) (fun c hc => ?_)).mono
    fun r hr pkg hp p hpkg => ?_
  · rcases c with s | _ | _
    · exact ⟨s, rfl⟩
    all_goals simp at hc
  · subst hpkg
    obtain ⟨-, h3, h4⟩ := hr
    exact ⟨(h3 p hp).2, (h4 p hp).2, (h4 p hp).1.2.trans ha⟩

theorem load_settled (hs : Setting c V W D F) {σ : Nat → Nat} {β : Type} {p : Str} (ha : isAbs p = true) {Q : β → Prop}
    {f : Nat → Except Err (Option Pkg) → Live β}
    (he : ∀ e, Halting (Among W) (HaltG V) (HaltR V) Q fun n => f n (.error e))
    (hk : ∀ pkg, KnownPkg V pkg → Halting (Among W) (HaltG V) (HaltR V) Q fun n => f n (.ok pkg)) :
    Halting (Among W) (HaltG V) (HaltR V) Q fun n => (loadPkg (host c ser (σ n)) p).bind (f n) := by
  refine Halting.bind (.of_sat (load_known hs 0 ha) (fun _ h => h) fun n => loadPkg_upto (σ n) p) fun a ha => ?_
  cases a with
  | error e => exact he e
  | ok pkg => exact hk pkg (ha pkg rfl)

end
end Verif.Live
