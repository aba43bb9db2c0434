import Verif.Spec.Query
import Verif.Spec.Xml
import Verif.Spec.Served
import Verif.Spec.GridJson
/-! # Specification of the footnotes of an instance file -/
namespace Telefacts.Server
open Telefacts.Instance Telefacts.Spec Telefacts.Decode Telefacts.Schema Telefacts.Query Telefacts.Linkbase Telefacts.Json

/-- The footnote links of an instance file. -/
def NoteLinks (root : Xml) (ls : List FootnoteLink) : Prop :=
  ∃ es l, Kids "footnoteLink" IsFootnoteLink root es ∧ Collected FootnoteLinkOf es l ∧ StableSortedBy FootnoteLink.title l ls

/-- An arc leads from the fact `fid` to the footnote. -/
def FootnoteOn (ls : List FootnoteLink) (fid : String) (fn : Footnote) : Prop :=
  ∃ link ∈ ls, fn ∈ link.footnotes ∧ ∃ a ∈ link.arcs, RefersIn ls a.frm fid ∧ fn.label = a.to

/-- Every link has arcs, which lead to footnotes of the link; footnotes are labelled with their identifiers, which no two share, and
no locator or source has the label of one. -/
structure Tidy (ls : List FootnoteLink) : Prop where
  arcs : ∀ link ∈ ls, link.arcs ≠ []
  targets : ∀ link ∈ ls, ∀ a ∈ link.arcs, '#' ∉ a.frm.toList ∧ ∃ fn ∈ link.footnotes, fn.label = a.to
  labels : ∀ link ∈ ls, ∀ fn ∈ link.footnotes, fn.id = fn.label ∧ '#' ∉ fn.id.toList
  unique : ∀ link ∈ ls, ∀ link' ∈ ls, ∀ fn ∈ link.footnotes, ∀ fn' ∈ link'.footnotes, fn.id = fn'.id → fn = fn'
  apart : ∀ link ∈ ls, ∀ fn ∈ link.footnotes, (∀ l ∈ ls.flatMap FootnoteLink.locs, l.label ≠ fn.label) ∧ ∀ a ∈ link.arcs, a.frm ≠ fn.label

/-- All arcs from the fact are in one link and have one source. -/
def StartsOnce (ls : List FootnoteLink) (fid : String) : Prop :=
  ∀ link ∈ ls, ∀ link' ∈ ls, ∀ a ∈ link.arcs, ∀ a' ∈ link'.arcs, RefersIn ls a.frm fid → RefersIn ls a'.frm fid →
    link = link' ∧ a.frm = a'.frm

/-- In row `n` and column `j` of the part `v` of the answer there is a number for every footnote of the fact, in increasing order, and
the texts of the footnotes are in the part; every text there is that of a footnote of the file, and no footnote is there twice. -/
def NotesServed (v : Json.Json) (n j : Nat) (ls : List FootnoteLink) (fid : String) : Prop :=
  ∃ x ks y ts, At v [.key "FootnoteGrid", .idx n, .idx j] x ∧ Elems Numeral x ks ∧ At v [.key "Footnotes"] y ∧ Elems IsStr y ts ∧
    ks.Pairwise (· < ·) ∧ (∀ k ∈ ks, 1 ≤ k ∧ k ≤ ts.length) ∧
    (∃ notes : List Footnote, notes.Nodup ∧ (∀ fn, fn ∈ notes ↔ FootnoteOn ls fid fn) ∧ ks.length = notes.length ∧
      ∀ fn ∈ notes, fn.inner ∈ ts) ∧
    (∀ t ∈ ts, ∃ link ∈ ls, ∃ fn ∈ link.footnotes, t = fn.inner) ∧
    ∃ all : List Footnote, all.Nodup ∧ (∀ fn ∈ all, ∃ link ∈ ls, fn ∈ link.footnotes) ∧ ts.length = all.length

end Telefacts.Server
