import Verif.Model.Attr
import Verif.Spec.Basic
/-!
# Specification of names and namespaces
-/
namespace Telefacts.Spec

/-- The namespace an attribute list binds to prefix `p`: the first `xmlns:p`, else empty. -/
def BoundTo (attrs : List Attr) (p u : String) : Prop :=
  (∃ a, FirstWith (fun a : Attr => a.name = ⟨"xmlns", p⟩) attrs a ∧ a.value = u) ∨
  ((∀ a ∈ attrs, a.name ≠ ⟨"xmlns", p⟩) ∧ u = "")

/-- The default namespace: the first attribute with local name `xmlns`, else empty. -/
def DefaultNs (attrs : List Attr) (u : String) : Prop :=
  (∃ a, FirstWith (fun a : Attr => a.name.loc = "xmlns") attrs a ∧ a.value = u) ∨
  ((∀ a ∈ attrs, a.name.loc ≠ "xmlns") ∧ u = "")

/-- Meaning of a possibly prefixed name. `l` may contain further colons. -/
inductive QName (attrs : List Attr) : String → XName → Prop
  | unprefixed (s u) : ':' ∉ s.toList → DefaultNs attrs u → QName attrs s ⟨u, s⟩
  | noLocal (p : String) : ':' ∉ p.toList → QName attrs (p ++ ":") ⟨"", ""⟩
  | bound (p l u : String) : ':' ∉ p.toList → l ≠ "" → BoundTo attrs p u → u ≠ "" →
      QName attrs (p ++ ":" ++ l) ⟨u, l⟩
  | unbound (p l d : String) : ':' ∉ p.toList → l ≠ "" → BoundTo attrs p "" → DefaultNs attrs d →
      QName attrs (p ++ ":" ++ l) ⟨d, l⟩

/-- The namespace declarations of an html element, as (prefix, namespace) in document order. -/
def declarations (attrs : List XpathAttr) : List (String × String) :=
  (attrs.filter (fun a => a.namespaceURI = "xmlns")).map (fun a => (a.name.loc, a.value))

/-- Prefix `p` is bound to `n` (the last declaration of `p`). -/
def Bound (attrs : List XpathAttr) (p n : String) : Prop :=
  LastWith (fun d : String × String => d.1 = p) (declarations attrs) (p, n)

/-- The well-known namespaces and their fixed output prefixes. -/
def wellKnown : List (String × String) :=
  [("http://www.xbrl.org/2003/instance", ""), ("http://xbrl.org/2006/xbrldi", "xbrldi"),
   ("http://www.w3.org/1999/xlink", "xlink"), ("http://www.w3.org/2001/XMLSchema-instance", "xsi"),
   ("http://www.xbrl.org/2003/iso4217", "iso4217"), ("http://www.xbrl.org/2003/linkbase", "link")]

/-- The output prefix of a declared prefix, as seen through the API. -/
def OutputPrefix (np : NameProvider) (p t : String) : Prop :=
  ∀ l : String, np.provideConceptName (p ++ ":" ++ l) = .ok (t ++ ":" ++ l)

/-- The letters tried as suffixes. -/
def letters : List Char := ['a','b','c','d','e','f','g','h','i','j','k','l','m','n','o','p','q','r','s','t','u','v','w','x','y','z']

/-- Candidate output prefixes for a declared prefix, in the order they are tried. -/
def candidates (p : String) : List String :=
  p :: letters.map (fun c => p ++ "-" ++ String.singleton c)

end Telefacts.Spec
