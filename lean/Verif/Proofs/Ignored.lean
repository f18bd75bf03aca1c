import Verif.Proofs.History
import Verif.Proofs.System
import Verif.Spec.Ignored
/-!
# Where an ignored result comes from
-/

namespace Verif

theorem ignInv {F : Fs → Prop} (e : Env) (hF : F e.fs) :
    Inv e.ctx (HistG F) (HistR F) (fun _ => True) (Origin F) (fun _ => True) (fun _ => True)
      (fun _ => True) (SaysIgnored e.opts F) where
  load p _ := (loadPkg_hist e hF p).mono fun _ h =>
    ⟨fun pkg hp => (h pkg hp).2, fun _ _ => trivial⟩
  ask _ _ := trivial
  askModule _ _ := trivial
  pathGet _ _ := trivial
  pathPkg _ _ _ _ := trivial
  pathModule _ _ := trivial
  pathParent _ _ _ _ _ _ := trivial
  target _ _ _ := trivial
  file i _ := by
    unfold resolveAsFile extensionsPlugin
    simp only
    split
    · trivial
    · split <;> trivial
  errTag := trivial
  errPkg _ _ := ⟨fun _ => trivial, fun _ _ _ _ _ => trivial, fun _ _ _ _ _ => trivial⟩
  exports _ _ _ _ := trivial
  imports _ _ _ _ := ⟨trivial, trivial⟩
  ignAlias k h := .alias k h
  ignField pkg k hp hb hk := by
    obtain ⟨fs, file, doc, h1, h2, h3⟩ := hp.file
    cases hp.browser k _ hk with
    | ignored h4 h5 => exact .browser fs file doc _ _ k hb h1 h2 h3 h4 h5

theorem system_ignored {cfg : Nat → Config} {ser : Json → Str} {fs : Fs} {l : List Event} {t : Task}
    (ht : t ∈ ((Sys.init fs).after cfg ser l).tasks) {path request : Str}
    (hc : t.call = .resolve path request) (hd : t.prog = .ret (.resolve (.ok .ignored))) :
    SaysIgnored (cfg t.rid).opts (Versions fs l) :=
  system_resolve (okFs := Versions fs l) (okCall := fun _ _ => True)
    (G := fun _ => HistG (Versions fs l)) (R := fun _ => HistR (Versions fs l))
    (J := HistJ (Versions fs l))
    (P := fun rid fs' path request => ResolvePost (fun _ => True) (fun _ => True)
      (SaysIgnored (cfg rid).opts (Versions fs l)) ((cfg rid).env ser fs') path request)
    (fun s rid o seeds h hg => hist_step s rid o seeds h hg)
    (fun rid fs' p h _ => (loadPkg_hist _ h p).mono fun _ _ => trivial)
    (fun rid fs' p r fuel h _ => resolve_sat (resolveStats_sat (ignInv ((cfg rid).env ser fs') h)
      fuel p r trivial fun _ _ =>
        ⟨trivial, ⟨fun _ => trivial, fun _ _ => trivial, fun _ _ => trivial⟩,
          ⟨fun _ => True, trivial, fun _ _ _ _ _ => trivial, fun _ _ => trivial⟩,
          fun _ _ _ _ _ => trivial⟩))
    (.inl rfl) (fun e he => by
      cases e with
      | start _ _ _ => trivial
      | change fs' => exact .inr he
      | step _ _ => trivial) (hist_init _) ht hc hd

end Verif
