import Verif.Props.Units
/-! # C27, C152: units from the file of the unit registry -/
namespace Telefacts
open Telefacts.Server Telefacts.Hydrate Telefacts.Catalog Telefacts.Json Telefacts.Cache Telefacts.Schema Telefacts.Instance
  Telefacts.Render Telefacts.Decode Telefacts.Spec Telefacts.Linkbase Telefacts.Query

/-- **C27.** From the file: the entry for a namespace and an id is that of the last complete `unit` element with them in the first `units`
element, field by field. -/
theorem C27_file {x : Xml} {l : List (List UtrUnit)} (h : registryFile x = some l) (n : XName) (m : Measurement) :
    queryUTR (some (mapMeasurements l)) n.space n.loc = some m ↔
      ∃ us rest, Kids "units" (Kids "unit" IsRegistryUnit) x (us :: rest) ∧ EntryOf us n m := by
  have hx := ((C99_registry x l).1 h).2
  have huniq : ∀ l', Kids "units" (Kids "unit" IsRegistryUnit) x l' → l' = l := by
    intro l' h'
    unfold IsRegistry at hx
    rw [kids_iff (kids_iff isRegistryUnit_iff "unit")] at h' hx
    rw [h', hx]
  cases l with
  | nil =>
    constructor
    · intro h
      simp [mapMeasurements, queryUTR] at h
    · rintro ⟨us, rest, h', _⟩
      exact absurd (huniq _ h') (by simp)
  | cons us rest =>
    rw [(C27_registry us rest n).2]
    constructor
    · intro h; exact ⟨us, rest, hx, h⟩
    · rintro ⟨us', rest', h', he⟩
      cases huniq _ h'
      exact he

/-- A file of the registry: the second unit has no name. -/
def moneyUtr : Xml :=
  let text (n s : String) : Xml := .mk ⟨"http://www.xbrl.org/2009/utr", n⟩ [] s s []
  .mk ⟨"http://www.xbrl.org/2009/utr", "utr"⟩ [] "" "" [.mk ⟨"http://www.xbrl.org/2009/utr", "units"⟩ [] "" "" [
    .mk ⟨"http://www.xbrl.org/2009/utr", "unit"⟩ [] "" "" [text "unitId" "USD", text "unitName" "US Dollar", text "nsUnit" "http://iso",
      text "itemType" "monetaryItemType", text "symbol" "$"],
    .mk ⟨"http://www.xbrl.org/2009/utr", "unit"⟩ [] "" "" [text "unitId" "EUR", text "nsUnit" "http://iso", text "symbol" "€"],
    .mk ⟨"http://www.xbrl.org/2009/utr", "unit"⟩ [] "" "" [text "unitId" "shares", text "unitName" "Share", text "nsUnit" XBRLI,
      text "itemType" "sharesItemType"]]]

/-- It is the registry of the site with amounts, but for the incomplete unit. -/
example : ∃ l, registryFile moneyUtr = some l ∧ mapMeasurements l = mapMeasurements [moneyRegistry] := ⟨_, rfl, by decide +kernel⟩

/-- **C152 (partial).** `C152_measure_partial` from the file of the registry: with the symbol or the name that the last complete `unit`
element for the measure has. -/
theorem C152_file_partial (site : Site) (id entity role : String) (b : Store.Bytes) (hb : Followed site id entity role b)
    (hu : Unambiguous (site.disk id)) (root : Xml) (file : InstFile) (x : Xml) (c : Concept) (r l : String)
    (ho : OnDisk site id entity root file x c r l) (percent : Bool) (head core tail : String)
    (hf : Formatted site x c percent head core tail) (utr : Xml) (hreg : site.outside.registry = registryFile utr)
    (us : List UtrUnit) (rest : List (List UtrUnit)) (hname : utr.name.loc = "utr")
    (hus : Kids "units" (Kids "unit" IsRegistryUnit) utr (us :: rest)) (uref : String) (href : AttrVal x.attrs "unitRef" uref)
    (u : HUnit) (hunit : HasUnit root uref u) (n : XName) (hs : Measures u n) :
    ∃ v w fo hy cc e, (∀ v', IsText (decodeUtf8 b) v' ↔ v' = v) ∧ Loads site id w fo hy ∧ HasContext (instanceWorld w fo file) root r cc ∧
      ShownEverywhere v (l ++ "#" ++ c.id) (fun p row => TextShown p row (l ++ "#" ++ c.id) cc e) ∧ e.core = core ∧ e.innerHtml = "" ∧
      WithUnit us n percent head tail e :=
  C152_measure_partial site id entity role b hb hu root file x c r l ho percent head core tail hf us rest
    (by rw [hreg]; exact (C99_registry utr _).2 ⟨hname, hus⟩) uref href u hunit n hs

/-- The part of the hypotheses that is about the registry holds of the file. -/
example : ∃ us, moneyUtr.name.loc = "utr" ∧ Kids "units" (Kids "unit" IsRegistryUnit) moneyUtr [us] ∧
    ∃ m, EntryOf us ⟨"http://iso", "USD"⟩ m ∧ m.symbol = "$" := by
  refine ⟨_, rfl, (kids_iff (kids_iff isRegistryUnit_iff "unit") _ _ _).2 rfl,
    ⟨"USD", "US Dollar", "http://iso", "monetaryItemType", "", "", "$", "", "", "", "", "", "", "", "", "", ""⟩, ?_, rfl⟩
  rw [← queryUTR_iff _ []]
  decide +kernel

end Telefacts
