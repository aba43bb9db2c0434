import Verif.Proof.Runs
import Verif.Props.Server
import Verif.Props.Published
/-! # C178: which of the files of a namespace is asked for its concepts -/
namespace Telefacts
open Telefacts.Hydrate Telefacts.Decode Telefacts.Instance Telefacts.Linkbase Telefacts.Schema Telefacts.Spec Telefacts.Server

theorem realised_last {L D : Type} {env : Disc.FolderEnv L D} {fuel : Nat} {sched : List (Disc.Write L) → List (Disc.Write L)} {fo : Disc.Folder L D}
    (hr : Disc.Realised env fuel sched) (hd : Disc.discover env fuel sched = some (.ok fo)) {n l : String} (hn : mapGet fo.namespaces n = some l) :
    ∃ key inst, Disc.EntryInstance env key inst ∧ Disc.Finally env inst n l := by
  rcases discover_ok hd with ⟨key, inst, ws, fo0, hE, hw, _, hi, h0, _, _, hns, _⟩ | ⟨_, _, _, _, hf⟩
  · refine ⟨key, inst, hE, (Disc.runs_last hw n l).1 ⟨_, hr fo key inst ws hd (by rw [hi, mapGet_cons, if_pos rfl]) hw, ?_⟩⟩
    rw [hns] at hn
    exact (Disc.namespaces_last n l _ fo0 h0).1 hn
  · rw [hf] at hn
    simp [Disc.emptyFolder] at hn

/-- **C178.** The locations that a namespace may have after discovery, in whatever order its goroutines come, are those that a reference
gives it from whose file it is not given another. -/
theorem C178_exact {L D : Type} (env : Disc.FolderEnv L D) (fuel : Nat) (hd : ∃ sched fo, Disc.discover env fuel sched = some (.ok fo))
    (key : String) (inst : Disc.InstanceFile) (hE : Disc.EntryInstance env key inst) (n l : String) :
    (∃ sched fo, (∀ ws, (sched ws).Perm ws) ∧ Disc.Realised env fuel sched ∧ Disc.discover env fuel sched = some (.ok fo) ∧
      mapGet fo.namespaces n = some l) ↔ Disc.Finally env inst n l := by
  constructor
  · rintro ⟨sched, fo, _, hr, hd, hn⟩
    obtain ⟨key', inst', hE', h⟩ := realised_last hr hd hn
    obtain ⟨_, rfl⟩ := entryInstance_unique hE hE'
    exact h
  · intro h
    obtain ⟨s0, f0, hd⟩ := hd
    rcases discover_cases env with ⟨key', inst', fo0, hE', _, h1, h2, _, _, _, h7⟩ | ⟨hn, _⟩
    · obtain ⟨rfl, rfl⟩ := entryInstance_unique hE hE'
      have hread : env.readInstance key = some inst := by obtain ⟨_, _, hread, _⟩ := hE; exact hread
      rw [h7, Disc.withInstance, hread] at hd
      cases hw : Disc.schemaRef env fuel inst with
      | none => simp [hw] at hd
      | some ws =>
        obtain ⟨c, hc, hl⟩ := (Disc.runs_last hw n l).2 h
        obtain ⟨ws', hw', hp⟩ := Disc.runs_perm hc
        rw [hw] at hw'
        cases hw'
        classical
        have hs : (fun x => if x = ws then c else x) ws = c := if_pos rfl
        have hfo : Disc.discover env fuel (fun x => if x = ws then c else x) =
            some (.ok { c.foldl Disc.applyWrite fo0 with instances := mapSet (c.foldl Disc.applyWrite fo0).instances key inst }) := by
          rw [h7, Disc.withInstance, hread]
          simp only [hw, if_pos]
        refine ⟨_, _, fun x => ?_, ?_, hfo, (Disc.namespaces_last n l c fo0 h1).2 hl⟩
        · split
          · rename_i e; rw [e]; exact hp
          · exact .refl _
        · intro fo k i x hd' hi hx
          rcases discover_ok hd' with ⟨k', i', _, _, hE'', _, _, hi', _⟩ | ⟨hno, _⟩
          · obtain ⟨rfl, rfl⟩ := entryInstance_unique hE hE''
            rw [hi', mapGet_cons] at hi
            split at hi
            · cases hi
              rw [hw] at hx
              cases hx
              rw [hs]
              exact hc
            · cases hi
          · exact (hno _ _ hE).elim
    · exact (hn _ _ hE).elim

/-- A file that refers to another of its namespace is not the last. -/
theorem not_last {L D : Type} {env : Disc.FolderEnv L D} {inst : Disc.InstanceFile} {n l : String} {f : Disc.SchemaFile} (hf : Disc.Local env l f)
    (hg : Disc.Gives env n f) : ¬ Disc.Finally env inst n l := by
  rintro (⟨i, _, g, h, hn⟩ | ⟨_, _, _, ⟨i, _, _, hn⟩ | ⟨i, _, g, h, hn⟩⟩)
  · rw [Disc.local_unique h.2.2.1 hf] at hn; exact hn hg
  · exact hn f hf hg
  · rw [Disc.local_unique h.2.2.1 hf] at hn; exact hn hg

/-- **C178.** In no load of a folder is a namespace looked up in a file that includes (or that refers to a file that includes, and so on)
another file of the namespace: facts whose concepts are declared only there are never read. -/
theorem C178_fails (site : Site) (folder : String) (w : Hydrate.World) (fo : Files) (h : Hydratable) (hl : Loads site folder w fo h)
    (n l : String) (f : Disc.SchemaFile) (hf : Disc.Local (site.disk folder).env l f) (hg : Disc.Gives (site.disk folder).env n f) :
    mapGet fo.namespaces n ≠ some l ∧
      ∀ key inst, Disc.EntryInstance (site.disk folder).env key inst → w.validUrl = (site.disk folder).isUrl →
        (∀ l', Disc.Locates (site.disk folder).env inst n l' → (site.disk folder).isUrl l' = false) → ∀ (file : InstFile) (x : Xml),
        x.name.space = n → (∀ l' sx c, Disc.Locates (site.disk folder).env inst n l' → (site.disk folder).read l' = some sx → DeclaredIn sx l' c →
          c.name = x.name → l' = l) → ∀ g, ¬ FactOf (instanceWorld w fo file) (fact x) g := by
  obtain ⟨_, _, fuel, sched, hp, hload, _, hr⟩ := hl
  have hne : mapGet fo.namespaces n ≠ some l := by
    intro hn
    obtain ⟨fo0, h1, rfl, _⟩ := load_some hload
    obtain ⟨_, _, _, hfin⟩ := realised_last hr h1 (n := n) (l := l) hn
    exact not_last hf hg hfin
  refine ⟨hne, fun key inst hE hurl hloc file x hx honly g hfact => ?_⟩
  obtain ⟨l', sx, c, hn, a, b, c', d⟩ := fact_file hurl hp hload hE file hloc x hx ⟨g, hfact⟩
  rw [honly l' sx c a b c' d] at hn
  exact hne hn

/-! ## The files of a namespace, one of which includes the other -/

def splitPlain : Site := { demoSite with disk := fun _ => splitDisk }

theorem split_include : Disc.IncludeTo splitDisk.env ⟨Disc.XSD, [⟨⟨"", "schemaLocation"⟩, "y.xsd"⟩]⟩ "http://x" "y.xsd" ((discoveredSchema splitY).get rfl) := by
  refine ⟨rfl, ?_, ⟨by decide, rfl, rfl⟩, ?_, by decide⟩ <;> (rw [← plainAttr_iff]; decide)

/-- The hypotheses of C178 are met: a report refers to a file that includes another of its namespace, and can be loaded. -/
example : (∃ w fo h, Loads splitPlain "a-1" w fo h) ∧ Disc.EntryInstance splitDisk.env "r.xml" splitInst ∧
    (∃ f, Disc.Local splitDisk.env "x.xsd" f ∧ Disc.Gives splitDisk.env "http://x" f) ∧
    Disc.Finally splitDisk.env splitInst "http://x" "y.xsd" ∧ ¬ Disc.Finally splitDisk.env splitInst "http://x" "x.xsd" := by
  have hroot : Disc.RefTo splitDisk.env ⟨LINK, [⟨⟨XLINK, "href"⟩, "x.xsd"⟩]⟩ "http://x" "x.xsd" ((discoveredSchema splitX).get rfl) := by
    refine ⟨rfl, ?_, ⟨by decide, rfl, rfl⟩, ?_, by decide⟩ <;> (rw [← plainAttr_iff]; decide)
  have hgives : Disc.Gives splitDisk.env "http://x" ((discoveredSchema splitX).get rfl) := .incl _ _ _ _ (List.mem_singleton.2 rfl) split_include
  have hlocal : Disc.Local splitDisk.env "x.xsd" ((discoveredSchema splitX).get rfl) := hroot.2.2.1
  have hnone : ∀ n, ¬ Disc.Gives splitDisk.env n ((discoveredSchema splitY).get rfl) := by
    have e1 : ((discoveredSchema splitY).get rfl).imp = [] := by decide +kernel
    have e2 : ((discoveredSchema splitY).get rfl).incl = [] := by decide +kernel
    intro n h
    cases h with
    | imp _ i _ hi _ => rw [e1] at hi; simp at hi
    | incl _ i _ _ hi _ => rw [e2] at hi; simp at hi
    | child _ _ _ hc _ =>
      rcases hc with ⟨i, hi, _⟩ | ⟨i, hi, _⟩
      · rw [e1] at hi; simp at hi
      · rw [e2] at hi; simp at hi
  refine ⟨?_, ⟨"r.xml", rfl, rfl, .inr ⟨(Disc.plain_iff _).2 (by decide +kernel), rfl⟩⟩, ⟨_, hlocal, hgives⟩,
    .inr ⟨"x.xsd", _, .root _ _ ⟨_, List.mem_singleton.2 rfl, _, hroot⟩, .inr ⟨_, List.mem_singleton.2 rfl, _, split_include, hnone _⟩⟩,
    not_last hlocal hgives⟩
  have he : (match load splitDisk diskWorld 3 id with
    | some (.done (some (_, _))) => true
    | _ => false) = true := by decide +kernel
  split at he
  · rename_i fo h hl
    refine ⟨diskWorld, fo, h, ⟨_, _, _, _, _, _, _, rfl⟩, ⟨fun _ _ => .refl _, fun _ _ => .refl _, fun _ _ => .refl _, fun _ _ => .refl _, fun _ _ => .refl _⟩,
      3, id, fun _ => .refl _, hl, fun fo x hf hx => ?_, Disc.realised_id _ _⟩
    have : (match Disc.discover splitDisk.env 3 id with
      | some (.ok fo) => fo.document.isSome
      | _ => false) = false := by decide +kernel
    change Disc.discover splitDisk.env 3 id = _ at hf
    rw [hf] at this
    simp [hx] at this
  · cases he

end Telefacts
