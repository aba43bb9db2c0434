import Verif.Model.Hydrate
/-!
# pkg/serializables/document.go: DecodeIxbrlFile

The parser (antchfx/xmlquery) is a parameter: a file is a list of element trees (one root in a well-formed
file) or cannot be parsed. The XPath expressions are modelled as document-order searches. Of the decoded
document only the html element and the inline facts are read outside this file (pkg/hydratables/document.go);
`SchemaRefs`, `Contexts`, `Units`, `Excludes`, `factMap` and `footnoteRelationships` are read nowhere and are
left out. The goroutines write different variables, except for `err` and `goErr`, which stay nil because the
expressions are constant and valid.
-/
namespace Telefacts.Ixbrl
open Telefacts.Document Telefacts.Hydrate

/-- An element of the parsed file; text nodes play no part. -/
inductive Dom where
  | mk (name : XName) (attrs : List XpathAttr) (kids : List Dom)

namespace Dom
def name : Dom → XName | mk n _ _ => n
def attrs : Dom → List XpathAttr | mk _ a _ => a
def kids : Dom → List Dom | mk _ _ k => k
end Dom

mutual
/-- `//*` on an element: the element and its descendants in document order. -/
def nodes : Dom → List Dom
  | .mk n a ks => .mk n a ks :: forest ks
/-- `//*` on a list of elements. -/
def forest : List Dom → List Dom
  | [] => []
  | d :: ds => nodes d ++ forest ds
end

/-- pkg/attr/literals.go:5 -/
def ix : String := "http://www.xbrl.org/2013/inlineXBRL"

/-- document.go:41: `//*[local-name()='html']`, first match. -/
def html (ds : List Dom) : Option Dom := (forest ds).find? fun d => d.name.loc = "html"

/-- document.go:85, 95: `//*[local-name()='n' and namespace-uri()=IX]`, all matches. -/
def inlines (n : String) (ds : List Dom) : List InlineFact :=
  ((forest ds).filter fun d => d.name.loc = n ∧ d.name.space = ix).map Dom.attrs

/-- document.go:29-178 `DecodeIxbrlFile`; `none` is a nil document. -/
def decodeIxbrlFile : Option (List Dom) → Option DocFile
  | none => none
  | some ds =>
    match html ds with
    | none => none
    | some h => some ⟨h.attrs, inlines "nonNumeric" ds, inlines "nonFraction" ds⟩

end Telefacts.Ixbrl
