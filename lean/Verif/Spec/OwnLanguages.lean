import Verif.Spec.Grid
import Verif.Spec.Label
/-!
# The languages of a grid, by the concepts that it names
-/
namespace Telefacts.Spec
open Telefacts.Instance Telefacts.Render

/-- What the segment or scenario of a context names: the members with their dimensions, then the typed dimensions (each twice, which makes
no difference). -/
def namedIn (d : DimCtx) : List String :=
  d.explicit.flatMap (fun m => [m.memHref, m.dimHref]) ++ d.typed.flatMap fun m => [m.dimHref, m.dimHref]

/-- What a context names. -/
def namedBy (c : Context) : List String := namedIn c.segment ++ namedIn c.scenario

/-- What a grid names: its rows, then what the contexts of its columns name, in the order of the facts for them. -/
def Names (f : Folder) (entity : String) (rows names : List String) : Prop :=
  ∃ css : List (List Context),
    List.Forall₂ (fun i cs => (cs.map Context.id).Nodup ∧ ∀ c, c ∈ cs ↔ OfEntity entity c ∧ HasFactFor f rows i c) f.insts css ∧
    names = rows ++ css.flatten.flatMap namedBy

/-- The language is one of a list of labels: for some role, the last label that has the role has a text in the language. -/
def OwnLanguage (packs : List LabelPack) (lang : Lang) : Prop := ∃ r p, LastWith (fun p => HasRole p r) packs p ∧ HasText p r lang

end Telefacts.Spec
