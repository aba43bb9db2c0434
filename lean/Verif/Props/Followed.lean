import Verif.Spec.Served
import Verif.Props.Server
/-! # From the files to a client that follows the catalog -/
namespace Telefacts
open Telefacts.Server Telefacts.Hydrate Telefacts.Catalog Telefacts.Json Telefacts.Cache Telefacts.Schema Telefacts.Instance
  Telefacts.Render Telefacts.Decode Telefacts.Spec Telefacts.Linkbase Telefacts.Query

theorem _root_.Telefacts.Json.ShownEverywhere.mono {v : Json} {href : String} {P Q : Json → (Nat → String → Prop) → Prop}
    (h : ShownEverywhere v href P) (hpq : ∀ p row, P p row → Q p row) : ShownEverywhere v href Q :=
  ⟨fun p hp hr => hpq _ _ (h.1 p hp hr), fun k p hp hr => hpq _ _ (h.2.1 k p hp hr), fun k p hp hr => hpq _ _ (h.2.2 k p hp hr)⟩

/-- What a client that follows the catalog finds of a fact: every text that the fact has without a language, and
numbers for its footnotes. -/
theorem followed_fact {site : Site} {id entity role : String} {b : Store.Bytes} (hb : Followed site id entity role b)
    (hu : Unambiguous (site.disk id)) {root : Xml} {file : InstFile} {x : Xml} {c : Concept} {r l : String}
    (ho : OnDisk site id entity root file x c r l) :
    ∃ v ld ch cc f, (∀ v', IsText (decodeUtf8 b) v' ↔ v' = v) ∧ ld.folder = id ∧ Loads site id ld.world ld.files ld.hyd ∧ ch.Fair ld.hyd ∧
      HasContext (instanceWorld ld.world ld.files file) root r cc ∧
      FactOf (instanceWorld ld.world ld.files file) (fact x) f ∧ (factEnv site ch ld).concept f.href = some c ∧
      ∀ e, (∀ langs, "Unlabelled" ∈ langs → ∃ m, renderCell (factEnv site ch ld) (some f) langs = some m ∧ ("Unlabelled", e) ∈ m) →
        ShownEverywhere v (l ++ "#" ++ c.id) fun p row => FactShown p row (l ++ "#" ++ c.id) cc e (notesOf site ld)
          (notesOf site ld (some f)) True := by
  obtain ⟨allowed, dry, s, b₀, e₀, e, slug, hn, hs, h₀, ha, h⟩ := hb
  obtain ⟨w, fo, hy, hl, rfl⟩ := catalog_answer hn hs h₀
  obtain ⟨_, _, _, _, _, hslug, _⟩ := advertised_select hl hl ha
  obtain ⟨_, ld, rfl, hl', ch, hch, en, rs, g, n, hsel, hg, hq, rfl⟩ := renderable_answer hn hs hslug h
  obtain ⟨en', r', hsel', hen, hr, _, hof⟩ := advertised_select hl hl' ha
  rw [hsel] at hsel'
  cases hsel'
  obtain ⟨cc, hcc1, hcc2⟩ := ho.context _ _ _ hl'
  have hids := ho.ids _ _ _ hl'
  obtain ⟨inst, sx, hroot, hsx, hc, hdist⟩ := ho.schema
  obtain ⟨⟨p, d, o, nn, ll, s₁, s₂, hw⟩, hfw, fuel, sched, hp, hload, _⟩ := id hl'
  have hent : stringify en = entity := (hof hu).1
  have hurl' : ld.world.validUrl = (site.disk ld.folder).isUrl := by rw [hw]; exact ho.url
  have hsx : SchemaAt (site.disk ld.folder) ld.world.discover inst x.name.space l sx := by rw [hw]; exact hsx
  obtain ⟨v, f, hv, hf, hcon, hsh⟩ := served_text (site.disk ld.folder) { ld.world with nsOrder := ch.nsOrder, labelOrder := ch.labelOrder }
    ⟨hfw.p, hfw.d, hfw.c, hch.ns, hch.label⟩ hurl' fuel sched hp ld.files ld.hyd hload root inst hroot file ho.decoded x c r ho.reports l sx hsx hc hdist
    ho.concrete hids cc hcc1 entity hcc2 site.tree (gridEnv site ch ld) hch.member (factEnv site ch ld) rfl (notesOf site ld) ch.cellOrder
    ch.lastOrder rfl site.spanish ch.schedule (booksOf site ch) rs.roleURI g (hent ▸ hg) ⟨n, en⟩ rs
  refine ⟨v, ld, ch, cc, f, ?_, rfl, hl', hch, hcc1, hf, hcon, fun e he => (hsh e he).mono fun p row => ?_⟩
  rotate_left
  · rintro ⟨j, h1, h2, h3⟩
    exact ⟨j, h1, h2, fun _ => h3 ⟨hch.cell, hch.last⟩⟩
  rw [decode_encoded]
  exact hv

end Telefacts
