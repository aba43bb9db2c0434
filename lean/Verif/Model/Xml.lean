import Verif.Model.Discover
import Verif.Model.Query
/-!
# pkg/serializables: decoding XML files

Files are XML trees or unreadable here; how trees come from texts (the tokenizer of encoding/xml) is modelled in
`Model/XmlText.lean`. What is
modelled is how `xml.Decoder.Decode` fills the tagged structures: a field `xml:"name"` collects the child
elements with that local name, whatever their namespace, in document order; `xml:",any"` collects the children
no other field collects; `,any,attr` all attributes; `,chardata` the text directly below the element;
`,innerxml` the source between the tags. The root must have the local name of the tag of `XMLName`.
-/
namespace Telefacts

/-- An XML element. `chars` is its direct text, `inner` the source text of its content. -/
inductive Xml where
  | mk (name : XName) (attrs : List Attr) (chars inner : String) (kids : List Xml)

namespace Xml
def name : Xml → XName | mk n _ _ _ _ => n
def attrs : Xml → List Attr | mk _ a _ _ _ => a
def chars : Xml → String | mk _ _ c _ _ => c
def inner : Xml → String | mk _ _ _ i _ => i
def kids : Xml → List Xml | mk _ _ _ _ k => k

/-- A field tagged `xml:"n"` of a slice type. -/
def named (n : String) (x : Xml) : List Xml := x.kids.filter fun k => decide (k.name.loc = n)

/-- A field tagged `xml:",any"` of a slice type next to fields tagged with `tags`. -/
def others (tags : List String) (x : Xml) : List Xml := x.kids.filter fun k => decide (k.name.loc ∉ tags)

end Xml

namespace Decode
open Instance Linkbase Schema

/-- An element of which namespace and attributes are kept. -/
def item (x : Xml) : Disc.Item := ⟨x.name.space, x.attrs⟩

/-- `serializables.InstanceFile`: instanceFile.go:11-126 -/
structure InstFile where
  attrs : List Attr
  schemaRef : List Disc.Item
  contexts : List CtxElem
  units : List UnitElem
  footnoteLinks : List FootnoteLinkElem
  facts : List FactElem

/-- instanceFile.go:28-38, 65-75: explicit members have character data, typed members inner XML. -/
def dims (x : Xml) : DimElem :=
  ⟨(x.named "explicitMember").map fun m => ⟨m.attrs, m.chars⟩, (x.named "typedMember").map fun m => ⟨m.attrs, m.inner⟩⟩

/-- instanceFile.go:21-40 -/
def entity (x : Xml) : EntityElem :=
  ⟨(x.named "identifier").map fun i => (i.attrs, i.chars), (x.named "segment").map dims⟩

/-- instanceFile.go:41-59 -/
def period (x : Xml) : PeriodElem :=
  ⟨(x.named "instant").map Xml.chars, (x.named "startDate").map Xml.chars, (x.named "endDate").map Xml.chars⟩

/-- instanceFile.go:18-77 -/
def context (x : Xml) : CtxElem :=
  ⟨x.name.space, x.attrs, (x.named "entity").map entity, (x.named "period").map period, (x.named "scenario").map dims⟩

/-- instanceFile.go:86-105 -/
def divide (x : Xml) : DivideElem :=
  ⟨(x.named "unitNumerator").map fun n => (n.named "measure").map Xml.chars,
    (x.named "unitDenominator").map fun n => (n.named "measure").map Xml.chars⟩

/-- instanceFile.go:78-106 -/
def unit (x : Xml) : UnitElem :=
  ⟨x.name.space, x.attrs, (x.named "measure").map Xml.chars, (x.named "divide").map divide⟩

/-- instanceFile.go:107-121 -/
def footnoteLink (x : Xml) : FootnoteLinkElem :=
  ⟨x.attrs, (x.named "loc").map Xml.attrs, (x.named "footnote").map fun n => (n.attrs, n.inner),
    (x.named "footnoteArc").map Xml.attrs⟩

/-- instanceFile.go:122-126 -/
def fact (x : Xml) : FactElem := ⟨x.name, x.attrs, x.inner⟩

/-- instanceFile.go:128-138 `DecodeInstanceFile` after tokenizing; `none` is an error. -/
def instanceFile (x : Xml) : Option InstFile :=
  if x.name.loc = "xbrl" then
    some ⟨x.attrs, (x.named "schemaRef").map item, (x.named "context").map context, (x.named "unit").map unit,
      (x.named "footnoteLink").map footnoteLink, (x.others ["schemaRef", "context", "unit", "footnoteLink"]).map fact⟩
  else none

/-- schemaFile.go:43-57 -/
def roleType (x : Xml) : RoleTypeElem :=
  ⟨x.name.space, x.attrs, (x.named "definition").map Xml.chars, (x.named "usedOn").map fun u => (u.name.space, u.chars)⟩

/-- schemaFile.go:11-64, 66-76 `DecodeSchemaFile`: the part read by hydration. -/
def schemaFile (x : Xml) : Option Schema.SchemaFile :=
  if x.name.loc = "schema" then
    some ⟨x.attrs, (x.named "element").map fun e => ⟨e.name.space, e.attrs⟩,
      (x.named "annotation").map fun a => ⟨a.name.space, (a.named "appinfo").map fun i =>
        ⟨i.name.space, (i.named "roleType").map roleType⟩⟩⟩
  else none

/-- schemaFile.go:11-64, 66-76 `DecodeSchemaFile`: the part read by discovery. -/
def discoveredSchema (x : Xml) : Option Disc.SchemaFile :=
  if x.name.loc = "schema" then
    some ⟨x.attrs, (x.named "include").map item, (x.named "import").map item,
      (x.named "annotation").map fun a => ⟨a.name.space, (a.named "appinfo").map fun i =>
        ⟨i.name.space, (i.named "linkbaseRef").map item⟩⟩, 0⟩
  else none

/-- `PresentationLinkbaseFile`, `DefinitionLinkbaseFile`, `CalculationLinkbaseFile`, `LabelLinkbaseFile`. -/
structure LinkbaseFile where
  roleRefs : List RoleRefElem
  links : List LinkElem

/-- The tags of the four kinds of linkbase files: `presentationLink`, `presentationArc` and so on. -/
def linkTag : Disc.LKind → String
  | .pre => "presentationLink"
  | .defn => "definitionLink"
  | .calc => "calculationLink"
  | .lab => "labelLink"

def arcTag : Disc.LKind → String
  | .pre => "presentationArc"
  | .defn => "definitionArc"
  | .calc => "calculationArc"
  | .lab => "labelArc"

/-- The decoders of presentationLinkbaseFile.go:11-42, definitionLinkbaseFile.go:11-42,
calculationLinkbaseFile.go:11-42 and labelLinkbaseFile.go:11-47 (only the last has labels). -/
def linkbaseFile (kind : Disc.LKind) (x : Xml) : Option LinkbaseFile :=
  if x.name.loc = "linkbase" then
    some ⟨(x.named "roleRef").map fun r => ⟨r.name.space, r.attrs⟩,
      (x.named (linkTag kind)).map fun k => ⟨k.attrs, (k.named "loc").map Xml.attrs, (k.named (arcTag kind)).map Xml.attrs,
        if kind = .lab then (k.named "label").map fun l => (l.attrs, l.chars) else []⟩⟩
  else none

/-- measurement.go:11-106 (serializables), 107-117 `DecodeUnitTypeRegistry`: the `unit` elements of every `units`
element. -/
def registryFile (x : Xml) : Option (List (List Query.UtrUnit)) :=
  if x.name.loc = "utr" then
    some ((x.named "units").map fun us => (us.named "unit").map fun u =>
      { unitID := (u.named "unitId").map Xml.chars
        unitName := (u.named "unitName").map Xml.chars
        nsUnit := (u.named "nsUnit").map Xml.chars
        itemType := (u.named "itemType").map Xml.chars
        nsItemType := (u.named "nsItemType").map Xml.chars
        itemTypeDate := (u.named "itemTypeDate").map Xml.chars
        symbol := (u.named "symbol").map Xml.chars
        definition := (u.named "definition").map Xml.chars
        baseStandard := (u.named "baseStandard").map Xml.chars
        conversionPresentation := (u.named "conversionPresentation").map Xml.inner
        conversionContent := (u.named "conversionContent").map Xml.inner
        status := (u.named "status").map Xml.chars
        versionDate := (u.named "versionDate").map Xml.chars
        numeratorItemType := (u.named "numeratorItemType").map Xml.chars
        nsNumeratorItemType := (u.named "nsNumeratorItemType").map Xml.chars
        denominatorItemType := (u.named "denominatorItemType").map Xml.chars
        nsDenominatorItemType := (u.named "nsDenominatorItemType").map Xml.chars })
  else none

end Decode
end Telefacts
