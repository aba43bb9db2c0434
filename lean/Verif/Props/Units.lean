import Verif.Spec.Units
import Verif.Props.Money
import Verif.Props.Followed
import Verif.Props.Published
/-! # C152: the units of facts, from the files to the client -/
namespace Telefacts
open Telefacts.Server Telefacts.Hydrate Telefacts.Catalog Telefacts.Json Telefacts.Cache Telefacts.Schema Telefacts.Instance
  Telefacts.Render Telefacts.Decode Telefacts.Spec Telefacts.Linkbase Telefacts.Query

/-- The units of the folder. -/
theorem loaded_units {d : Disk} {w : Hydrate.World} {fuel : Nat} {sched : List (Disc.Write LinkbaseFile) → List (Disc.Write LinkbaseFile)}
    {fo : Files} {h : Hydratable} (hl : load d w fuel sched = some (.done (some (fo, h)))) {root : Xml} {inst : Disc.InstanceFile}
    (hroot : EntryRoot d root inst) (u : HUnit) :
    u ∈ (values h.instances).flatMap HInstance.units ↔
      ∃ y ∈ root.kids, y.name.loc = "unit" ∧ ∃ e, IsUnit y e ∧ UnitOf root.attrs e u := by
  obtain ⟨key, hE, hread⟩ := hroot
  rcases load_instances hl with ⟨_, hno⟩ | ⟨key', inst', root', file', i, hE', hr', hf', _, hv, hio, _⟩
  · exact absurd hE (hno _ _)
  obtain ⟨rfl, rfl⟩ := entryInstance_unique hE hE'
  rw [hread] at hr'; cases hr'
  rw [hv]
  obtain ⟨_, hattrs, _, _, hunits, _⟩ := ((C99_instance root).2 file').1 hf'
  obtain ⟨lu, hlu, hsu⟩ := hio.units
  simp only [List.flatMap_cons, List.flatMap_nil, List.append_nil]
  rw [hsu.1.mem_iff, (collected_iff (hydrateUnit_iff _) _ _).1 hlu, List.mem_filterMap]
  simp only [hydrateUnit_iff, (kids_iff isUnit_iff "unit" root _).1 hunits, List.mem_map, hattrs]
  constructor
  · rintro ⟨_, ⟨y, hy, rfl⟩, hu'⟩
    simp only [Xml.named, List.mem_filter, decide_eq_true_eq] at hy
    exact ⟨y, hy.1, hy.2, _, (isUnit_iff _ _).2 rfl, hu'⟩
  · rintro ⟨y, hy, hn, e, he, hu'⟩
    rw [isUnit_iff] at he
    subst he
    exact ⟨_, ⟨y, by simp [Xml.named, hy, hn], rfl⟩, hu'⟩

/-- The unit that facts refer to. -/
theorem loaded_unit {d : Disk} {w : Hydrate.World} {fuel : Nat} {sched : List (Disc.Write LinkbaseFile) → List (Disc.Write LinkbaseFile)}
    {fo : Files} {h : Hydratable} (hl : load d w fuel sched = some (.done (some (fo, h)))) {root : Xml} {inst : Disc.InstanceFile}
    (hroot : EntryRoot d root inst) {r : String} {u : HUnit} (hu : HasUnit root r u) :
    FirstWith (fun u : HUnit => u.id = r) ((values h.instances).flatMap HInstance.units) u := by
  have hmem := loaded_units hl hroot
  generalize (values h.instances).flatMap HInstance.units = units at hmem
  obtain ⟨hid, y, hy, hn, ⟨e, he, hue⟩, honly⟩ := hu
  have huniq : ∀ u' ∈ units, u'.id = r → u' = u := by
    intro u' hu' hid'
    obtain ⟨z, hz, hzn, e', he', hue'⟩ := (hmem u').1 hu'
    have := honly z hz hzn e' he' (hid' ▸ hue'.2.1)
    subst this
    rw [isUnit_iff] at he he'
    subst he he'
    rw [← hydrateUnit_iff] at hue hue'
    rw [hue] at hue'
    exact (Option.some.inj hue').symm
  have hum : u ∈ units := (hmem u).2 ⟨y, hy, hn, e, he, hue⟩
  obtain ⟨u', hu'⟩ := firstWith_exists (P := fun u : HUnit => u.id = r) (l := units) ⟨u, hum, hid⟩
  obtain ⟨h1, h2⟩ := firstWith_mem hu'
  rw [huniq u' h1 h2] at hu'
  exact hu'

theorem followed_text {site : Site} {id entity role : String} {b : Store.Bytes} (hb : Followed site id entity role b)
    (hu : Unambiguous (site.disk id)) {root : Xml} {file : InstFile} {x : Xml} {c : Concept} {r l : String}
    (ho : OnDisk site id entity root file x c r l) :
    ∃ v ld ch cc f, (∀ v', IsText (decodeUtf8 b) v' ↔ v' = v) ∧ ld.folder = id ∧ Loads site id ld.world ld.files ld.hyd ∧ ch.Fair ld.hyd ∧
      HasContext (instanceWorld ld.world ld.files file) root r cc ∧
      FactOf (instanceWorld ld.world ld.files file) (fact x) f ∧ (factEnv site ch ld).concept f.href = some c ∧
      ∀ e, (∀ langs, "Unlabelled" ∈ langs → ∃ m, renderCell (factEnv site ch ld) (some f) langs = some m ∧ ("Unlabelled", e) ∈ m) →
        ShownEverywhere v (l ++ "#" ++ c.id) fun p row => TextShown p row (l ++ "#" ++ c.id) cc e := by
  obtain ⟨v, ld, ch, cc, f, h1, h2, h3, h4, h5, h6, h7, h8⟩ := followed_fact hb hu ho
  exact ⟨v, ld, ch, cc, f, h1, h2, h3, h4, h5, h6, h7, fun e he => (h8 e he).mono fun _ _ => text_of_fact⟩

/-- The text of a number. -/
theorem numeric_cell {fe : FactEnv} {f : Fact} {c : Concept} {amount head core tail : String} (hn : f.isNil = false)
    (hc : fe.concept f.href = some c) (ht : c.type.loc ≠ "textBlockItemType") (hp : f.precision ≠ -2147483647)
    (percent : Prop) [Decidable percent] (hpc : percent ↔ c.type = ⟨"http://www.xbrl.org/dtr/type/numeric", "percentItemType"⟩)
    (ha : (percent ∧ fe.hundred f.inner = some amount) ∨ (¬ percent ∧ amount = f.inner))
    (hd : fe.digits f.precision amount ',' = some (head, core, tail)) :
    ∃ e : FactExpression, (∀ langs, "Unlabelled" ∈ langs → ∃ m, renderCell fe (some f) langs = some m ∧ ("Unlabelled", e) ∈ m) ∧
    e.core = core ∧ e.innerHtml = "" ∧
    e.head = (match (fe.measure f.unitRef).1 with
      | some n => if n.symbol = "" then "" else n.symbol ++ " "
      | none => "") ++ head ∧
    e.tail = tail ++ (if percent then "%" else "") ++ (match (fe.measure f.unitRef).1 with
      | none => ""
      | some n => " " ++ (if n.symbol = "" ∧ ¬ percent then n.unitName else "") ++ (match (fe.measure f.unitRef).2 with
        | none => ""
        | some d => "/" ++ (if d.symbol = "" then d.unitName else d.symbol))) := by
  have key : ∀ langs, "Unlabelled" ∈ langs → ∃ m e, renderCell fe (some f) langs = some m ∧ ("Unlabelled", e) ∈ m := by
    intro langs hl
    obtain ⟨m, h1, _, h3⟩ := C56_entries fe langs f hn
    obtain ⟨⟨k, e⟩, hq, rfl⟩ := List.mem_map.1 ((h3 "Unlabelled").2 ⟨hl, .inr (.inr rfl)⟩)
    exact ⟨m, e, h1, hq⟩
  obtain ⟨m, e, hm, he⟩ := key ["Unlabelled"] (by simp)
  have hr := renderCell_entry fe _ f hn m hm _ e he
  refine ⟨e, fun langs hl => ?_, C87_numeric fe _ f c m "Unlabelled" e amount head core tail hn hc ht hp hm he percent hpc ha (by
    rw [if_neg (by decide)]; exact hd)⟩
  obtain ⟨m', e', hm', he'⟩ := key langs hl
  have hr' := renderCell_entry fe _ f hn m' hm' _ e' he'
  rw [hr] at hr'
  cases hr'
  exact ⟨m', hm', he'⟩

/-- What is shown of a fact with digits, by the entries found for its unit. -/
theorem followed_number {site : Site} {id entity role : String} {b : Store.Bytes} (hb : Followed site id entity role b)
    (hu : Unambiguous (site.disk id)) {root : Xml} {file : InstFile} {x : Xml} {c : Concept} {r l : String}
    (ho : OnDisk site id entity root file x c r l) {percent : Bool} {head core tail : String}
    (hf : Formatted site x c percent head core tail) :
    ∃ v w fo hy cc uref e, (∀ v', IsText (decodeUtf8 b) v' ↔ v' = v) ∧ Loads site id w fo hy ∧
      HasContext (instanceWorld w fo file) root r cc ∧ OptVal x.attrs "unitRef" uref ∧
      ShownEverywhere v (l ++ "#" ++ c.id) (fun p row => TextShown p row (l ++ "#" ++ c.id) cc e) ∧ e.core = core ∧ e.innerHtml = "" ∧
      ∀ num den, findMeasurement (site.outside.registry.map mapMeasurements) (values hy.instances) uref = (num, den) →
      e.head = (match num with
        | some n => if n.symbol = "" then "" else n.symbol ++ " "
        | none => "") ++ head ∧
      e.tail = tail ++ (if percent then "%" else "") ++ (match num with
        | none => ""
        | some n => " " ++ (if n.symbol = "" ∧ ¬ percent then n.unitName else "") ++ (match den with
          | none => ""
          | some d => "/" ++ (if d.symbol = "" then d.unitName else d.symbol))) := by
  obtain ⟨v, ld, ch, cc, f, hv, rfl, hl, hch, hcc, hfo, hcon, hsh⟩ := followed_text hb hu ho
  obtain ⟨a, amount, hdec, hst, ham, hdig⟩ := hf.digits
  have hprec : f.precision = stored a := by
    obtain ⟨a', h1, h2⟩ := hfo.precision
    rw [h2]
    exact ((precisionOf_iff _ _).2 ⟨a', h1, rfl⟩).symm.trans ((precisionOf_iff _ _).2 ⟨a, hdec, rfl⟩)
  have hnil : f.isNil = false := by
    cases hn : f.isNil with
    | false => rfl
    | true => exact absurd (hfo.isNil.1 hn) hf.present
  have hin : f.inner = x.inner := hfo.inner
  obtain ⟨e, h1, h2, h3, h4, h5⟩ := numeric_cell (fe := factEnv site ch ld) (amount := amount) hnil hcon hf.text (by rw [hprec]; exact hst)
    (percent = true) hf.kind (by rw [hin, Bool.not_eq_true]; exact ham) (by rw [hprec]; exact hdig)
  refine ⟨v, _, _, _, cc, f.unitRef, e, hv, hl, hcc, hfo.unit, hsh e h1, h2, h3, fun num den hm => ?_⟩
  rw [show (factEnv site ch ld).measure f.unitRef = (num, den) from hm] at h4 h5
  exact ⟨h4, h5⟩

theorem optVal_of {attrs : List Attr} {n s s' : String} (h : OptVal attrs n s) (h' : AttrVal attrs n s') : s = s' := by
  rcases h with h | ⟨h, _⟩
  · rw [← plainAttr_iff] at h h'
    exact Option.some.inj (h.symm.trans h')
  · obtain ⟨a, ha, _⟩ := h'
    obtain ⟨h1, h2⟩ := firstWith_mem ha
    exact absurd h2 (h a h1)

theorem withUnit_of {us : List UtrUnit} {n : XName} {percent : Bool} {head tail : String} {e : FactExpression}
    {num den : Option Measurement} (hnum : ∀ m, num = some m ↔ EntryOf us n m) (hden : den = none)
    (h1 : e.head = (match (generalizing := false) num with
        | some n => if n.symbol = "" then "" else n.symbol ++ " "
        | none => "") ++ head)
    (h2 : e.tail = tail ++ (if percent then "%" else "") ++ (match (generalizing := false) num with
        | none => ""
        | some n => " " ++ (if n.symbol = "" ∧ ¬ percent then n.unitName else "") ++ (match (generalizing := false) den with
          | none => ""
          | some d => "/" ++ (if d.symbol = "" then d.unitName else d.symbol)))) : WithUnit us n percent head tail e := by
  subst hden
  constructor
  · intro m hm hs
    rw [(hnum m).2 hm] at h1 h2
    simp only [hs, if_false, false_and, String.append_empty] at h1 h2
    refine ⟨h1, h2.trans ?_⟩
    cases percent <;> simp [String.append_assoc]
  · intro m hm hs
    rw [(hnum m).2 hm] at h1 h2
    simp only [hs, if_true, true_and, String.append_empty, String.empty_append] at h1 h2
    refine ⟨h1, h2.trans ?_⟩
    cases percent <;> simp [String.append_assoc]
  · intro hm
    cases hn : num with
    | some m => exact absurd ((hnum m).1 hn) (hm m)
    | none =>
      rw [hn] at h1 h2
      simp only [String.empty_append, String.append_empty] at h1 h2
      exact ⟨h1, h2⟩

/-- **C152 (partial).** A number whose unit, on disk, is a measure: in every grid with a row for its concept, a client that follows the
catalog finds it with the symbol that the registry has for the measure before the digits or, without a symbol, the name of the unit after
them. Missing: units that divide (`C152_divide_fails`). -/
theorem C152_measure_partial (site : Site) (id entity role : String) (b : Store.Bytes) (hb : Followed site id entity role b)
    (hu : Unambiguous (site.disk id)) (root : Xml) (file : InstFile) (x : Xml) (c : Concept) (r l : String)
    (ho : OnDisk site id entity root file x c r l) (percent : Bool) (head core tail : String)
    (hf : Formatted site x c percent head core tail) (us : List UtrUnit) (rest : List (List UtrUnit))
    (hreg : site.outside.registry = some (us :: rest)) (uref : String) (href : AttrVal x.attrs "unitRef" uref)
    (u : HUnit) (hunit : HasUnit root uref u) (n : XName) (hs : Measures u n) :
    ∃ v w fo hy cc e, (∀ v', IsText (decodeUtf8 b) v' ↔ v' = v) ∧ Loads site id w fo hy ∧ HasContext (instanceWorld w fo file) root r cc ∧
      ShownEverywhere v (l ++ "#" ++ c.id) (fun p row => TextShown p row (l ++ "#" ++ c.id) cc e) ∧ e.core = core ∧ e.innerHtml = "" ∧
      WithUnit us n percent head tail e := by
  obtain ⟨v, w, fo, hy, cc, uref', e, hv, hl, hcc, hopt, hsh, h1, h2, h3⟩ := followed_number hb hu ho hf
  obtain ⟨inst, sx, hroot, _⟩ := ho.schema
  obtain ⟨_, _, fuel, sched, hp, hload, _⟩ := _root_.id hl
  cases optVal_of hopt href
  have hfw := loaded_unit hload hroot hunit
  rw [hreg] at h3
  obtain ⟨hden, hnum⟩ := ((C26_measurement_partial us rest (values hy.instances) uref).2 u hfw _ _ rfl).1 hs.1
  rw [hs.2] at hnum
  obtain ⟨h4, h5⟩ := h3 _ _ rfl
  exact ⟨v, w, fo, hy, cc, e, hv, hl, hcc, hsh, h1, h2, withUnit_of (fun m => hnum m) hden h4 h5⟩

/-- **C152 fails.** A number whose unit divides is shown as if its unit were the numerator, whatever the registry has for the denominator,
if no unit in the namespace of the denominator has the local name of the numerator: earnings per share in dollars, not in dollars per
share. -/
theorem C152_divide_fails (site : Site) (id entity role : String) (b : Store.Bytes) (hb : Followed site id entity role b)
    (hu : Unambiguous (site.disk id)) (root : Xml) (file : InstFile) (x : Xml) (c : Concept) (r l : String)
    (ho : OnDisk site id entity root file x c r l) (percent : Bool) (head core tail : String)
    (hf : Formatted site x c percent head core tail) (us : List UtrUnit) (rest : List (List UtrUnit))
    (hreg : site.outside.registry = some (us :: rest)) (uref : String) (href : AttrVal x.attrs "unitRef" uref)
    (u : HUnit) (hunit : HasUnit root uref u) (num den : XName) (hs : Divides u num den) (hno : ∀ m, ¬ EntryOf us ⟨den.space, num.loc⟩ m) :
    ∃ v w fo hy cc e, (∀ v', IsText (decodeUtf8 b) v' ↔ v' = v) ∧ Loads site id w fo hy ∧ HasContext (instanceWorld w fo file) root r cc ∧
      ShownEverywhere v (l ++ "#" ++ c.id) (fun p row => TextShown p row (l ++ "#" ++ c.id) cc e) ∧ e.core = core ∧ e.innerHtml = "" ∧
      WithUnit us num percent head tail e := by
  obtain ⟨v, w, fo, hy, cc, uref', e, hv, hl, hcc, hopt, hsh, h1, h2, h3⟩ := followed_number hb hu ho hf
  obtain ⟨inst, sx, hroot, _⟩ := ho.schema
  obtain ⟨_, _, fuel, sched, hp, hload, _⟩ := _root_.id hl
  cases optVal_of hopt href
  have hfw := loaded_unit hload hroot hunit
  rw [hreg] at h3
  obtain ⟨hnum, hden, _⟩ := ((C26_measurement_partial us rest (values hy.instances) uref).2 u hfw _ _ rfl).2 hs.1 hs.2.1 hs.2.2.1
  rw [hs.2.2.2.1] at hnum hden
  rw [hs.2.2.2.2] at hden
  obtain ⟨h4, h5⟩ := h3 _ _ rfl
  refine ⟨v, w, fo, hy, cc, e, hv, hl, hcc, hsh, h1, h2, withUnit_of (fun m => hnum m) ?_ h4 h5⟩
  exact Option.eq_none_iff_forall_ne_some.2 fun m hd => hno m ((hden m).1 hd)

/-- **C152 (partial).** A number that refers to no unit of the instance is shown without one. -/
theorem C152_none_partial (site : Site) (id entity role : String) (b : Store.Bytes) (hb : Followed site id entity role b)
    (hu : Unambiguous (site.disk id)) (root : Xml) (file : InstFile) (x : Xml) (c : Concept) (r l : String)
    (ho : OnDisk site id entity root file x c r l) (percent : Bool) (head core tail : String)
    (hf : Formatted site x c percent head core tail)
    (hno : ∀ uref, AttrVal x.attrs "unitRef" uref → ∀ y ∈ root.kids, y.name.loc = "unit" → ¬ AttrVal y.attrs "id" uref) :
    ∃ v w fo hy cc e, (∀ v', IsText (decodeUtf8 b) v' ↔ v' = v) ∧ Loads site id w fo hy ∧ HasContext (instanceWorld w fo file) root r cc ∧
      ShownEverywhere v (l ++ "#" ++ c.id) (fun p row => TextShown p row (l ++ "#" ++ c.id) cc e) ∧
      e = ⟨head, core, tail ++ (if percent then "%" else ""), ""⟩ := by
  obtain ⟨v, w, fo, hy, cc, uref', e, hv, hl, hcc, hopt, hsh, h1, h2, h3⟩ := followed_number hb hu ho hf
  obtain ⟨inst, sx, hroot, _⟩ := ho.schema
  obtain ⟨_, _, fuel, sched, hp, hload, _⟩ := _root_.id hl
  have hfind : findMeasurement (site.outside.registry.map mapMeasurements) (values hy.instances) uref' = (none, none) := by
    unfold findMeasurement
    have : ((values hy.instances).flatMap HInstance.units).find? (fun u => decide (u.id = uref')) = none := by
      rw [List.find?_eq_none]
      intro u hu
      obtain ⟨y, hy, hn, he⟩ := (loaded_units hload hroot u).1 hu
      obtain ⟨e, he, hue⟩ := he
      rw [decide_eq_true_eq]
      intro hid
      rcases hopt with hopt | ⟨_, rfl⟩
      · refine hno uref' hopt y hy hn ?_
        rw [isUnit_iff] at he
        subst he
        exact hid ▸ hue.2.1
      · exact hue.2.2.1 hid
    rw [this]
  obtain ⟨h4, h5⟩ := h3 _ _ hfind
  refine ⟨v, w, fo, hy, cc, e, hv, hl, hcc, hsh, ?_⟩
  obtain ⟨a1, a2, a3, a4⟩ := e
  simp only [String.empty_append, String.append_empty] at h1 h2 h4 h5
  simp [h1, h2, h4, h5]

/-! ## The hypotheses hold of a site -/

theorem moneyHasUnit (i : String) (kids : List Xml) (u : HUnit) (hk : (i, kids) = ("usd", [moneyMeasure "iso4217:USD"]) ∨
    (i, kids) = ("ps", [.mk ⟨XBRLI, "divide"⟩ [] "" "" [
      .mk ⟨XBRLI, "unitNumerator"⟩ [] "" "" [moneyMeasure "iso4217:USD"],
      .mk ⟨XBRLI, "unitDenominator"⟩ [] "" "" [moneyMeasure "xbrli:shares"]]]))
    (hu : hydrateUnit moneyXml.attrs (unit (moneyUnit i kids)) = some u) (hi : u.id = i) : HasUnit moneyXml i u := by
  refine ⟨hi, moneyUnit i kids, ?_, rfl, ⟨_, (isUnit_iff _ _).2 rfl, (hydrateUnit_iff _ _ _).1 hu⟩, ?_⟩
  · rcases hk with hk | hk <;> cases hk <;> simp [moneyXml, Xml.kids]
  · intro z hz hn e he hid
    rw [isUnit_iff] at he
    subst he
    rw [← plainAttr_iff] at hid
    simp only [moneyXml, Xml.kids, List.mem_cons, List.not_mem_nil, or_false] at hz
    rcases hz with rfl | rfl | rfl | rfl | rfl | rfl | rfl | rfl | rfl | rfl
    all_goals first
      | exact absurd hn (by decide)
      | (rcases hk with hk | hk <;> cases hk <;> first | rfl | exact absurd hid (by decide))

theorem moneyFormatted (r u i : String) : Formatted moneySite (moneyFact r u i) diskConcept false "" "100" "" := by
  obtain ⟨a, h1, h2⟩ := (precisionOf_iff (moneyFact r u i).attrs 0).1 rfl
  refine ⟨?_, by decide, by decide, a, "100", h1, ?_, .inr ⟨rfl, rfl⟩, rfl⟩
  · rw [← boolAttr_iff]
    exact Bool.false_ne_true
  · rw [← h2]; decide

theorem moneyEntry_iff (n : XName) (m : Measurement) :
    EntryOf moneyRegistry n m ↔ queryUTR (some (mapMeasurements [moneyRegistry])) n.space n.loc = some m := (queryUTR_iff _ _ _ _).symm

def moneyDollars : HUnit := ⟨"usd", ⟨⟨"http://iso", "USD"⟩, "iso4217:USD"⟩, ⟨⟨"", ""⟩, ""⟩, ⟨⟨"", ""⟩, ""⟩⟩
def moneyPerShare : HUnit := ⟨"ps", ⟨⟨"", ""⟩, ""⟩, ⟨⟨"http://iso", "USD"⟩, "iso4217:USD"⟩, ⟨⟨XBRLI, "shares"⟩, "xbrli:shares"⟩⟩

/-- The hypotheses of `C152_measure_partial` hold of an amount in dollars; it is shown as `$ 100`. -/
example : ∃ b file m, Followed moneySite "a-1" "s/1" "r" b ∧ Unambiguous (moneySite.disk "a-1") ∧
    OnDisk moneySite "a-1" "s/1" moneyXml file (moneyFact "c" "usd" "f1") diskConcept "c" "x.xsd" ∧
    Formatted moneySite (moneyFact "c" "usd" "f1") diskConcept false "" "100" "" ∧ moneySite.outside.registry = some [moneyRegistry] ∧
    AttrVal (moneyFact "c" "usd" "f1").attrs "unitRef" "usd" ∧ HasUnit moneyXml "usd" moneyDollars ∧
    Measures moneyDollars ⟨"http://iso", "USD"⟩ ∧ EntryOf moneyRegistry ⟨"http://iso", "USD"⟩ m ∧ m.symbol = "$" := by
  obtain ⟨fo, h, hl, ⟨b, hb⟩, _⟩ := money_load
  obtain ⟨file, hf⟩ := moneyOnDisk "c" "usd" "f1" "2020-12-31" (by simp [moneyRows])
  refine ⟨b, file, ⟨"USD", "US Dollar", "http://iso", "monetaryItemType", "", "", "$", "", "", "", "", "", "", "", "", "", ""⟩,
    money_followed hl (demoChoice_fair h) hb, money_facts.1, hf, moneyFormatted _ _ _, rfl, ?_, ?_, ⟨by decide, rfl⟩, ?_, rfl⟩
  · rw [← plainAttr_iff]; decide
  · exact moneyHasUnit _ _ _ (.inl rfl) (by decide +kernel) rfl
  · rw [moneyEntry_iff]; decide +kernel

/-- The hypotheses of `C152_divide_fails` hold of an amount in dollars per share, with shares in the registry. -/
example : ∃ b file m, Followed moneySite "a-1" "s/1" "r" b ∧ Unambiguous (moneySite.disk "a-1") ∧
    OnDisk moneySite "a-1" "s/1" moneyXml file (moneyFact "d" "ps" "f2") diskConcept "d" "x.xsd" ∧
    Formatted moneySite (moneyFact "d" "ps" "f2") diskConcept false "" "100" "" ∧ moneySite.outside.registry = some [moneyRegistry] ∧
    AttrVal (moneyFact "d" "ps" "f2").attrs "unitRef" "ps" ∧ HasUnit moneyXml "ps" moneyPerShare ∧
    Divides moneyPerShare ⟨"http://iso", "USD"⟩ ⟨XBRLI, "shares"⟩ ∧ EntryOf moneyRegistry ⟨XBRLI, "shares"⟩ m ∧ m.unitName = "Share" ∧
    ∀ m, ¬ EntryOf moneyRegistry ⟨XBRLI, "USD"⟩ m := by
  obtain ⟨fo, h, hl, ⟨b, hb⟩, _⟩ := money_load
  obtain ⟨file, hf⟩ := moneyOnDisk "d" "ps" "f2" "2021-12-31" (by simp [moneyRows])
  refine ⟨b, file, ⟨"shares", "Share", XBRLI, "sharesItemType", "", "", "", "", "", "", "", "", "", "", "", "", ""⟩,
    money_followed hl (demoChoice_fair h) hb, money_facts.1, hf, moneyFormatted _ _ _, rfl, ?_, ?_, ⟨rfl, by decide, by decide, rfl, rfl⟩, ?_,
    rfl, ?_⟩
  · rw [← plainAttr_iff]; decide
  · exact moneyHasUnit _ _ _ (.inr rfl) (by decide +kernel) rfl
  · rw [moneyEntry_iff]; decide +kernel
  · intro m
    rw [moneyEntry_iff, show queryUTR (some (mapMeasurements [moneyRegistry])) XBRLI "USD" = none by decide +kernel]
    exact nofun

/-- The hypotheses of `C152_none_partial` hold of an amount whose unit is missing. -/
example : ∃ b file, Followed moneySite "a-1" "s/1" "r" b ∧ Unambiguous (moneySite.disk "a-1") ∧
    OnDisk moneySite "a-1" "s/1" moneyXml file (moneyFact "e" "gone" "f3") diskConcept "e" "x.xsd" ∧
    Formatted moneySite (moneyFact "e" "gone" "f3") diskConcept false "" "100" "" ∧
    ∀ uref, AttrVal (moneyFact "e" "gone" "f3").attrs "unitRef" uref → ∀ y ∈ moneyXml.kids, y.name.loc = "unit" → ¬ AttrVal y.attrs "id" uref := by
  obtain ⟨fo, h, hl, ⟨b, hb⟩, _⟩ := money_load
  obtain ⟨file, hf⟩ := moneyOnDisk "e" "gone" "f3" "2022-12-31" (by simp [moneyRows])
  refine ⟨b, file, money_followed hl (demoChoice_fair h) hb, money_facts.1, hf, moneyFormatted _ _ _, ?_⟩
  intro uref hu y hy hn hid
  rw [← plainAttr_iff] at hu hid
  have : uref = "gone" := (Option.some.inj (hu.symm.trans (show _ = some "gone" by decide)))
  subst this
  simp only [moneyXml, Xml.kids, List.mem_cons, List.not_mem_nil, or_false] at hy
  rcases hy with rfl | rfl | rfl | rfl | rfl | rfl | rfl | rfl | rfl | rfl
  all_goals first
    | exact absurd hn (by decide)
    | exact absurd hid (by decide)

end Telefacts
