import Verif.Spec.Units
import Verif.Props.Server
import Verif.Props.Query
/-! # A site whose instance has amounts with units and footnotes

For the examples of C152 and C153. -/
namespace Telefacts
open Telefacts.Server Telefacts.Hydrate Telefacts.Catalog Telefacts.Json Telefacts.Cache Telefacts.Schema Telefacts.Instance
  Telefacts.Render Telefacts.Decode Telefacts.Spec Telefacts.Linkbase Telefacts.Query

def moneyContext (r day : String) : Xml :=
  .mk ⟨XBRLI, "context"⟩ [⟨⟨"", "id"⟩, r⟩] "" "" [
    .mk ⟨XBRLI, "entity"⟩ [] "" "" [.mk ⟨XBRLI, "identifier"⟩ [⟨⟨"", "scheme"⟩, "s"⟩] "1" "1" []],
    .mk ⟨XBRLI, "period"⟩ [] "" "" [.mk ⟨XBRLI, "instant"⟩ [] day day []]]

def moneyFact (r u i : String) : Xml :=
  .mk ⟨"http://x", "Cash"⟩ [⟨⟨"", "contextRef"⟩, r⟩, ⟨⟨"", "unitRef"⟩, u⟩, ⟨⟨"", "id"⟩, i⟩, ⟨⟨"", "decimals"⟩, "0"⟩] "100" "100" []

def moneyMeasure (s : String) : Xml := .mk ⟨XBRLI, "measure"⟩ [] s s []

def moneyUnit (i : String) (kids : List Xml) : Xml := .mk ⟨XBRLI, "unit"⟩ [⟨⟨"", "id"⟩, i⟩] "" "" kids

def moneyNote (i text : String) : Xml :=
  .mk ⟨LINK, "footnote"⟩ [⟨⟨XLINK, "type"⟩, "resource"⟩, ⟨⟨"", "id"⟩, i⟩, ⟨⟨XLINK, "label"⟩, i⟩, ⟨⟨"xml", "lang"⟩, "en"⟩] text text []

def moneyLoc (f label : String) : Xml :=
  .mk ⟨LINK, "loc"⟩ [⟨⟨XLINK, "type"⟩, "locator"⟩, ⟨⟨XLINK, "href"⟩, f⟩, ⟨⟨XLINK, "label"⟩, label⟩] "" "" []

def moneyArc (a b : String) : Xml :=
  .mk ⟨LINK, "footnoteArc"⟩ [⟨⟨XLINK, "type"⟩, "arc"⟩, ⟨⟨XLINK, "arcrole"⟩, FactFootnoteArcrole⟩, ⟨⟨XLINK, "from"⟩, a⟩, ⟨⟨XLINK, "to"⟩, b⟩] "" "" []

def moneyLink (kids : List Xml) : Xml :=
  .mk ⟨LINK, "footnoteLink"⟩ [⟨⟨XLINK, "type"⟩, "extended"⟩, ⟨⟨XLINK, "role"⟩, "http://www.xbrl.org/2003/role/link"⟩] "" "" kids

/-- An amount in dollars with a footnote, one in dollars per share with another, and one whose unit is missing. -/
def moneyXml : Xml :=
  .mk ⟨XBRLI, "xbrl"⟩ [⟨⟨"xmlns", "x"⟩, "http://x"⟩, ⟨⟨"xmlns", "iso4217"⟩, "http://iso"⟩, ⟨⟨"xmlns", "xbrli"⟩, XBRLI⟩] "" "" [
    .mk ⟨LINK, "schemaRef"⟩ [⟨⟨XLINK, "href"⟩, "x.xsd"⟩] "" "" [],
    moneyContext "c" "2020-12-31", moneyContext "d" "2021-12-31", moneyContext "e" "2022-12-31",
    moneyFact "c" "usd" "f1", moneyFact "d" "ps" "f2", moneyFact "e" "gone" "f3",
    moneyUnit "usd" [moneyMeasure "iso4217:USD"],
    moneyUnit "ps" [.mk ⟨XBRLI, "divide"⟩ [] "" "" [
      .mk ⟨XBRLI, "unitNumerator"⟩ [] "" "" [moneyMeasure "iso4217:USD"],
      .mk ⟨XBRLI, "unitDenominator"⟩ [] "" "" [moneyMeasure "xbrli:shares"]]],
    moneyLink [moneyLoc "#f1" "l1", moneyLoc "#f2" "l2", moneyNote "n1" "restated", moneyNote "n2" "unaudited",
      moneyArc "l1" "n1", moneyArc "l2" "n2"]]

def moneyDisk : Disk :=
  { diskDemo with
    read := fun n => if n = "r.xml" then some moneyXml else if n = "x.xsd" then some diskSchema else if n = "p.xml" then some diskLinks else none }

/-- The registry has the dollar with its symbol, and shares. -/
def moneyRegistry : List UtrUnit :=
  [⟨["USD"], ["US Dollar"], ["http://iso"], ["monetaryItemType"], [], [], ["$"], [], [], [], [], [], [], [], [], [], []⟩,
   ⟨["shares"], ["Share"], [XBRLI], ["sharesItemType"], [], [], [], [], [], [], [], [], [], [], [], [], []⟩]

def moneyWorld : Hydrate.World := { diskWorld with registry := some [moneyRegistry] }

def moneySite : Site :=
  { demoSite with
    disk := fun _ => moneyDisk
    outside := moneyWorld
    noteTree := groupTree
    digits := fun _ v _ => some ("", v, "") }

theorem moneyLike : DiskLike moneyDisk where
  only := by
    intro l x h hx
    simp only [moneyDisk] at h
    split at h
    · cases h; exact absurd hx (by decide)
    · split at h
      · cases h; exact ⟨‹_›, rfl⟩
      · split at h
        · cases h; exact absurd hx (by decide)
        · cases h
  schema := rfl
  noUrl := rfl

theorem moneyEntry : Disc.EntryInstance moneyDisk.env "r.xml" diskInst :=
  ⟨"r.xml", rfl, rfl, .inr ⟨(Disc.plain_iff _).2 (by decide +kernel), rfl⟩⟩

theorem money_load : ∃ fo h, load moneyDisk moneyWorld 3 id = some (.done (some (fo, h))) ∧
    (∃ b, render moneySite (demoChoice h) demoSlug ⟨"a-1", moneyWorld, fo, h⟩ = .done (some b, none)) ∧
    (listing moneyDisk (entityQuery (.ok [])) h).subjects.map Subject.entity = [⟨"s", "1"⟩] ∧
    (listing moneyDisk (entityQuery (.ok [])) h).rsets = [⟨"001 - A", "r"⟩] := by
  have he : (match load moneyDisk moneyWorld 3 id with
    | some (.done (some (fo, h))) =>
      (match render moneySite (demoChoice h) demoSlug ⟨"a-1", moneyWorld, fo, h⟩ with
        | .done (some _, none) => true
        | _ => false) &&
      decide ((listing moneyDisk (entityQuery (.ok [])) h).subjects.map Subject.entity = [⟨"s", "1"⟩]) &&
      decide ((listing moneyDisk (entityQuery (.ok [])) h).rsets = [⟨"001 - A", "r"⟩])
    | _ => false) = true := by decide +kernel
  split at he
  · rename_i fo h hl
    simp only [Bool.and_eq_true, decide_eq_true_eq] at he
    obtain ⟨⟨h1, h2⟩, h3⟩ := he
    refine ⟨fo, h, hl, ?_, h2, h3⟩
    split at h1
    · exact ⟨_, ‹_›⟩
    · cases h1
  · cases he

theorem money_loads {fo : Files} {h : Hydratable} (hl : load moneyDisk moneyWorld 3 id = some (.done (some (fo, h)))) :
    Loads moneySite "a-1" moneyWorld fo h := by
  refine ⟨⟨_, _, _, _, _, _, _, rfl⟩, ⟨fun _ _ => .refl _, fun _ _ => .refl _, fun _ _ => .refl _, fun _ _ => .refl _, fun _ _ => .refl _⟩, 3, id,
    fun _ => .refl _, hl, fun fo x hf hx => ?_, Disc.realised_id _ _⟩
  have : (match Disc.discover moneyDisk.env 3 id with
    | some (.ok fo) => fo.document.isSome
    | _ => false) = false := by decide +kernel
  change Disc.discover moneyDisk.env 3 id = _ at hf
  rw [hf] at this
  simp [hx] at this

theorem money_facts : Unambiguous moneyDisk ∧ ReportsOn moneyDisk ⟨"s", "1"⟩ ∧ RoleOfFolder moneyDisk ⟨"001 - A", "r"⟩ ∧
    ∀ r, RoleOfFolder moneyDisk r → r = ⟨"001 - A", "r"⟩ := by
  obtain ⟨fo, h, hl, _, h1, h2⟩ := money_load
  have k1 := (C108_subjects hl (entityQuery (.ok []))).1
  have k2 := (C108_relationship_sets (fun _ => .refl _) hl (entityQuery (.ok []))).1
  rw [h1] at k1
  rw [h2] at k2
  simp only [List.mem_singleton] at k1 k2
  refine ⟨?_, (k1 _).1 rfl, (k2 _).1 rfl, fun r hr => (k2 r).2 hr⟩
  intro e₁ e₂ r₁ r₂ a b c d _
  rw [(k1 _).2 a, (k1 _).2 b, (k2 _).2 c, (k2 _).2 d]
  exact ⟨rfl, rfl⟩

/-- A history, with any order of footnotes, in which a client follows the catalog. -/
theorem money_followed {fo : Files} {h : Hydratable} (hl : load moneyDisk moneyWorld 3 id = some (.done (some (fo, h)))) {c : Choice}
    (hc : c.Fair h) {b : Store.Bytes} (hb : render moneySite c demoSlug ⟨"a-1", moneyWorld, fo, h⟩ = .done (some b, none)) :
    Followed moneySite "a-1" "s/1" "r" b := by
  obtain ⟨s, hs, hlog⟩ := follow_history (allowed := demoCalls) (.inl rfl) (.inr rfl) (money_loads hl) ⟨_, _, _, demoSlug_eq⟩ hc hb
  have hmem : (Req.catalog "a-1", Out.ret (Val.bytes (some (catalogBytes moneySite ⟨"a-1", moneyWorld, fo, h⟩))) none) ∈ s.log := by
    rw [hlog]; exact List.mem_cons_of_mem _ List.mem_cons_self
  refine ⟨demoCalls, true, s, _, none, none, demoSlug, demoCalls_normal, hs, hmem, ?_, by rw [hlog]; exact List.mem_cons_self⟩
  rw [C124_catalog moneySite demoCalls demoCalls_normal true s hs "a-1" _ _ hmem]
  obtain ⟨_, f1, f2, f3⟩ := money_facts
  refine ⟨⟨_, f1, by decide⟩, _, f2, rfl, demoSlug_eq, fun r' hr _ => ?_⟩
  rw [f3 r' hr]
  exact String.lt_irrefl _

/-- The contexts, with their facts and days. -/
def moneyRows : List (String × String × String × String) :=
  [("c", "usd", "f1", "2020-12-31"), ("d", "ps", "f2", "2021-12-31"), ("e", "gone", "f3", "2022-12-31")]

theorem moneyHasContext (w : Instance.World) (r u i day : String) (hr : (r, u, i, day) ∈ moneyRows) :
    HasContext w moneyXml r ⟨r, "s", "1", ⟨[], []⟩, day, "", "", ⟨[], []⟩⟩ := by
  have hne : r ≠ "" := by rintro rfl; simp [moneyRows] at hr
  refine ⟨rfl, moneyContext r day, ?_, rfl, ⟨_, (isContext_iff _ _).2 rfl, ?_⟩, ?_⟩
  · simp only [moneyRows, List.mem_cons, List.not_mem_nil, or_false, Prod.mk.injEq] at hr
    rcases hr with ⟨rfl, _, _, rfl⟩ | ⟨rfl, _, _, rfl⟩ | ⟨rfl, _, _, rfl⟩ <;> simp [moneyXml, Xml.kids]
  · refine ⟨_, ⟨⟨rfl, ?_, hne⟩, ⟨_, rfl⟩, ⟨_, _, rfl, ?_⟩, by simp⟩, .inl ⟨rfl, rfl⟩, .inl ⟨rfl, rfl⟩,
      .inr ⟨_, _, rfl, .inr ⟨_, rfl⟩, .inl ⟨.inl rfl, rfl, rfl⟩⟩⟩
    · rw [← plainAttr_iff]; rfl
    · rw [← plainAttr_iff]; rfl
  · intro y hy hn e he hid
    rw [isContext_iff] at he
    subst he
    have hid := hid.2.1
    simp only [moneyXml, Xml.kids, List.mem_cons, List.not_mem_nil, or_false] at hy
    have key : ∀ r' d', AttrVal (moneyContext r' d').attrs "id" r → r' = r := by
      intro r' d' h
      rw [← plainAttr_iff] at h
      exact Option.some.inj h
    simp only [moneyRows, List.mem_cons, List.not_mem_nil, or_false, Prod.mk.injEq] at hr
    rcases hy with rfl | rfl | rfl | rfl | rfl | rfl | rfl | rfl | rfl | rfl
    · exact absurd hn (by decide)
    all_goals first
      | exact absurd hn (by decide)
      | (have hk := key _ "" hid
         subst hk
         rcases hr with ⟨hr, _, _, rfl⟩ | ⟨hr, _, _, rfl⟩ | ⟨hr, _, _, rfl⟩ <;> first | rfl | exact absurd hr (by decide))

theorem moneyReports (r u i day : String) (hr : (r, u, i, day) ∈ moneyRows) : Reports moneyXml (moneyFact r u i) diskConcept r where
  kid := by
    simp only [moneyRows, List.mem_cons, List.not_mem_nil, or_false, Prod.mk.injEq] at hr
    rcases hr with ⟨rfl, rfl, rfl, _⟩ | ⟨rfl, rfl, rfl, _⟩ | ⟨rfl, rfl, rfl, _⟩ <;> simp [moneyXml, Xml.kids]
  fact := by simp [Reserved, moneyFact, Xml.name]
  name := rfl
  nspace := by simp [moneyFact, Xml.name]
  ctx := by rw [← plainAttr_iff]; rfl
  nonempty := by rintro rfl; simp [moneyRows] at hr
  only := by
    intro y hy hn hc
    have key : ∀ r' u' i', AttrVal (moneyFact r' u' i').attrs "contextRef" r → r' = r := by
      intro r' u' i' h
      rw [← plainAttr_iff] at h
      exact Option.some.inj h
    simp only [moneyXml, Xml.kids, List.mem_cons, List.not_mem_nil, or_false] at hy
    simp only [moneyRows, List.mem_cons, List.not_mem_nil, or_false, Prod.mk.injEq] at hr
    rcases hy with rfl | rfl | rfl | rfl | rfl | rfl | rfl | rfl | rfl | rfl
    all_goals first
      | exact absurd hn (by decide)
      | (have hk := key _ _ _ hc
         subst hk
         rcases hr with ⟨hr, rfl, rfl, rfl⟩ | ⟨hr, rfl, rfl, rfl⟩ | ⟨hr, rfl, rfl, rfl⟩ <;> first | rfl | exact absurd hr (by decide))

/-- Every one of the facts is on disk. -/
theorem moneyOnDisk (r u i day : String) (hr : (r, u, i, day) ∈ moneyRows) :
    ∃ file, OnDisk moneySite "a-1" "s/1" moneyXml file (moneyFact r u i) diskConcept r "x.xsd" := by
  refine ⟨_, rfl, rfl, moneyReports r u i day hr, ⟨diskInst, diskSchema, ⟨_, moneyEntry, rfl⟩, diskSchemaAt moneyLike _, diskDeclared.2 rfl,
    fun c' hc _ => diskDeclared.1 hc⟩, rfl, ?_, fun w fo h _ => ⟨_, moneyHasContext _ r u i day hr, by unfold OfEntity; rfl⟩⟩
  rintro w fo h ⟨⟨_, _, _, _, _, _, _, hw⟩, _, _, _, _, hl, _⟩
  exact diskIds moneyLike (by rw [hw]; rfl) hl

end Telefacts
