import Verif.Props.GridLabels
import Verif.Props.Dts
/-! # C151: labels of published linkbases -/
namespace Telefacts
open Telefacts.Hydrate Telefacts.Decode Telefacts.Instance Telefacts.Linkbase Telefacts.Schema Telefacts.Spec Telefacts.Render

/-- **C151 fails.** When the schemas in reach refer to published label linkbases only, a concept is shown with its href and the fragment
of it, in no role or language but these two, whatever labels the linkbases give it. -/
theorem C151_published_fails {Φ : Type} (d : Disk) (w : Hydrate.World) (hw : Fair w) (fuel : Nat)
    (sched : List (Disc.Write LinkbaseFile) → List (Disc.Write LinkbaseFile)) (hperm : ∀ ws, (sched ws).Perm ws)
    (fo : Files) (h : Hydratable) (hl : load d w fuel sched = some (.done (some (fo, h)))) (tree : List Arc → String → Node)
    (env : GridEnv Φ) (hord : ∀ m, (env.memberOrder m).Perm m) (spanish : Date → Option String) (gs : Schedule) (b : Books) (entity role : String)
    (g : Grids Φ) (hg : renderGrids (renderFolder w fo h tree) env spanish gs b entity role = .done g)
    (hpub : ∀ key inst loc f i v, Disc.EntryInstance d.env key inst → Disc.Reach d.env inst loc f → Disc.RefIn f i →
      XlinkVal i.attrs "role" (Disc.refRole .lab) → XlinkVal i.attrs "href" v → d.isUrl v = true)
    (href : String) (p : LabelPack) (hp : InGrids g href p) (r lang t : String) : Shown p r lang t ↔ HrefText href r lang t := by
  obtain ⟨h1, h2, _⟩ := C146_labels d w hw fuel sched hperm fo h hl _ (fun _ => ⟨_, (hw.l _ _).map _, rfl⟩) env hord spanish gs b entity role g hg href p hp
  refine ⟨fun hs => (h1 r lang t hs).resolve_right ?_, h2 r lang t⟩
  rintro ⟨name, x, ⟨⟨key, inst, loc, f, hE, hR, ann, a1, a2, app, a3, a4, i, a5, _, _, _, a6, a7, _, a8⟩, _⟩, _⟩
  have := hpub key inst loc f i name hE hR ⟨ann, a1, a2, app, a3, a4, a5⟩ a6 a7
  rw [show d.isUrl name = false from a8] at this
  cases this

/-- **C151, what holds.** A label that a linkbase of the folder gives is shown, when it gives one only in the role and language. -/
theorem C151_local_partial {Φ : Type} (d : Disk) (w : Hydrate.World) (hw : Fair w) (fuel : Nat)
    (sched : List (Disc.Write LinkbaseFile) → List (Disc.Write LinkbaseFile)) (hperm : ∀ ws, (sched ws).Perm ws)
    (fo : Files) (h : Hydratable) (hl : load d w fuel sched = some (.done (some (fo, h)))) (tree : List Arc → String → Node)
    (env : GridEnv Φ) (hord : ∀ m, (env.memberOrder m).Perm m) (spanish : Date → Option String) (gs : Schedule) (b : Books) (entity role : String)
    (g : Grids Φ) (hg : renderGrids (renderFolder w fo h tree) env spanish gs b entity role = .done g)
    (href r lang t : String) (ht : HasLabel d href r lang t) (honly : ∀ t', HasLabel d href r lang t' → t' = t) :
    ∀ p, InGrids g href p → Shown p r lang t :=
  C146_shown d w hw fuel sched hperm fo h hl tree env hord spanish gs b entity role g hg href r lang t ht honly

/-! A folder whose schema refers to a published label linkbase. -/

def outRefs : List Xml :=
  [.mk ⟨LINK, "linkbaseRef"⟩ [⟨⟨XLINK, "arcrole"⟩, Disc.LINKARCROLE⟩, ⟨⟨XLINK, "type"⟩, "simple"⟩,
      ⟨⟨XLINK, "role"⟩, Disc.LKind.pre.role⟩, ⟨⟨XLINK, "href"⟩, "p.xml"⟩] "" "" [],
    .mk ⟨LINK, "linkbaseRef"⟩ [⟨⟨XLINK, "arcrole"⟩, Disc.LINKARCROLE⟩, ⟨⟨XLINK, "type"⟩, "simple"⟩,
      ⟨⟨XLINK, "role"⟩, Disc.LKind.lab.role⟩, ⟨⟨XLINK, "href"⟩, "http://p/l.xml"⟩] "" "" []]

def outSchema : Xml :=
  .mk ⟨Disc.XSD, "schema"⟩ [⟨⟨"", "targetNamespace"⟩, "http://x"⟩] "" "" [
    .mk ⟨Disc.XSD, "annotation"⟩ [] "" "" [.mk ⟨Disc.XSD, "appinfo"⟩ [] "" "" outRefs],
    .mk ⟨Disc.XSD, "element"⟩ [⟨⟨"", "id"⟩, "x_Cash"⟩, ⟨⟨"", "name"⟩, "Cash"⟩, ⟨⟨"", "type"⟩, "t"⟩] "" "" []]

def outDisk : Disk where
  entryName := some "r.xml"
  images := []
  read := fun n => if n = "r.xml" then some reportXml else if n = "x.xsd" then some outSchema
    else if n = "p.xml" then some diskLinks else if n = "http://p/l.xml" then some labelledLinks else none
  fileExists := fun _ => true
  doc := fun _ => none
  isUrl := fun l => decide (l = "http://p/l.xml")

def outRows : Option (List (String × List (String × List (String × String)))) :=
  match load outDisk diskWorld 3 id with
  | some (.done (some (fo, h))) =>
    match diskGrids fo h with
    | .done g => some (g.p.rows.map (fun r => (r.href, r.label)))
    | _ => none
  | _ => none

set_option synthInstance.maxSize 1000 in
theorem outRows_eq : outRows = some [("x.xsd#x_Cash", [("Default", [("Unlabelled", "x.xsd#x_Cash"), ("Truncated", "#x_Cash")])])] := by decide +kernel

theorem outRead {l : String} {f : Disc.SchemaFile} (h : outDisk.env.readSchema l = some f) : discoveredSchema outSchema = some f := by
  obtain ⟨x, hx, hs⟩ := Option.bind_eq_some_iff.1 (show (outDisk.read l).bind discoveredSchema = some f from h)
  simp only [outDisk] at hx
  split at hx
  · cases hx; exact absurd (show discoveredSchema reportXml = none by decide +kernel) (by rw [hs]; simp)
  · split at hx
    · cases hx; exact hs
    · split at hx
      · cases hx; exact absurd (show discoveredSchema diskLinks = none by decide +kernel) (by rw [hs]; simp)
      · split at hx
        · cases hx; exact absurd (show discoveredSchema labelledLinks = none by decide +kernel) (by rw [hs]; simp)
        · cases hx

/-- The hypotheses of `C151_published_fails` hold of it, the concept stands in the grid, and the published linkbase gives it a label. -/
example : ∃ fo h g p, Fair diskWorld ∧ load outDisk diskWorld 3 id = some (.done (some (fo, h))) ∧ diskGrids fo h = .done g ∧
    InGrids g "x.xsd#x_Cash" p ∧ (∃ link ∈ labelledLinks.kids, GivesLabel link "x.xsd#x_Cash" "Default" "en - english" "Cash at bank") ∧
    ∀ key inst loc f i v, Disc.EntryInstance outDisk.env key inst → Disc.Reach outDisk.env inst loc f → Disc.RefIn f i →
      XlinkVal i.attrs "role" (Disc.refRole .lab) → XlinkVal i.attrs "href" v → outDisk.isUrl v = true := by
  have he := outRows_eq
  unfold outRows at he
  split at he
  · rename_i fo h hl
    split at he
    · rename_i g hg
      simp only [Option.some.injEq] at he
      obtain ⟨r, hr, hrh⟩ : ∃ r ∈ g.p.rows, r.href = "x.xsd#x_Cash" := by
        obtain ⟨r, hr, e⟩ := List.mem_map.1 (he.symm ▸ List.mem_singleton_self _)
        exact ⟨r, hr, (Prod.mk.inj e).1⟩
      refine ⟨fo, h, g, r.label, ⟨fun _ _ => .refl _, fun _ _ => .refl _, fun _ _ => .refl _, fun _ _ => .refl _, fun _ _ => .refl _⟩, hl, hg, hrh ▸ .row r hr, ?_, ?_⟩
      · refine ⟨_, List.mem_singleton.2 rfl, rfl, ?_, ⟨"r", ?_, by decide⟩, labelledLoc, List.mem_of_getElem? (i := 0) rfl, labelledArc, List.mem_of_getElem? (i := 1) rfl,
          labelledText, List.mem_of_getElem? (i := 2) rfl, "cash", labelledCash, rfl, ⟨?_, ?_, by decide, ?_, by decide⟩, rfl,
          ⟨?_, ?_, by decide, ?_, by decide, ?_, by decide⟩, rfl, ⟨?_, by decide, ?_, by decide, ?_, by decide, rfl⟩, .inl ⟨rfl, rfl⟩, .inl ⟨rfl, rfl⟩, rfl⟩ <;>
        first
        | (rw [xlinkVal_iff]; decide +kernel)
        | (rw [← plainAttr_iff]; decide +kernel)
      · intro key inst loc f i v _ hR hi hrole hv
        have hf := outRead (Disc.reach_read hR)
        cases hf
        obtain ⟨ann, h1, _, app, h2, _, h3⟩ := hi
        obtain rfl := List.mem_singleton.1 h1
        obtain rfl := List.mem_singleton.1 h2
        rcases List.mem_cons.1 h3 with rfl | h3
        · rw [xlinkVal_iff] at hrole
          exact absurd hrole (by decide +kernel)
        · obtain rfl := List.mem_singleton.1 h3
          rw [xlinkVal_iff] at hv
          obtain rfl := Option.some.inj (hv.symm.trans (by decide +kernel : _ = some "http://p/l.xml"))
          rfl
    · cases he
  · cases he

end Telefacts
