import Verif.Props.Published
import Verif.Spec.Cells
/-! # C149: the spelling of references to concepts -/
namespace Telefacts
open Telefacts.Hydrate Telefacts.Decode Telefacts.Instance Telefacts.Linkbase Telefacts.Schema Telefacts.Spec Telefacts.Render

variable {d : Disk} {w : Hydrate.World} {fuel : Nat} {sched : List (Disc.Write LinkbaseFile) → List (Disc.Write LinkbaseFile)}
  {fo : Files} {h : Hydratable}

/-- Every cell of a row is what is found for the row and some context. -/
theorem inRow_find {Φ : Type} {f : Folder} {env : GridEnv Φ} {spanish : Date → Option String} {gs : Schedule} {b : Books} {entity role : String}
    {g : Grids Φ} (hg : renderGrids f env spanish gs b entity role = .done g) {href : String} {x : Φ} (hx : InRow g href x) :
    ∃ langs ctx, x = (env.source langs).render ((env.source langs).find href ctx) := by
  obtain ⟨p, dd, ct, hp, hd, hct, rfl⟩ := renderGrids_done hg
  obtain ⟨p, pr, pl⟩ := p
  obtain ⟨dd, dr, dl⟩ := dd
  obtain ⟨ct, cr, cl⟩ := ct
  have key : ∀ {langs hrefs periods members voids q} {n j : Nat}, Aligned f entity (env.source langs) hrefs periods members voids q →
      hrefs[n]? = some href → CellAt q.facts n j x → ∃ langs ctx, x = (env.source langs).render ((env.source langs).find href ctx) := by
    intro langs hrefs periods members voids q n j ⟨cols, _, _, _, _, _, hcell, _⟩ hn hc
    obtain ⟨h', c, h1, _, hx⟩ := (hcell n j x).1 hc
    rw [hn] at h1; cases h1
    exact ⟨_, _, hx⟩
  rcases hx with ⟨n, j, hn, hc⟩ | ⟨rd, hrd, n, j, hn, hc⟩ | ⟨it, hit, n, j, hn, hc⟩
  · exact key (C92_presentation _ env entity role _ p pr pl hp).2.1 hn hc
  · simp only [formatPeriod] at hrd
    obtain ⟨rd', hrd', rfl⟩ := List.mem_map.1 hrd
    obtain ⟨langs', ha, _⟩ := C93_definition _ env entity role b dd dr dl hd rd' hrd'
    exact key ha hn hc
  · simp only [formatPeriod] at hit
    obtain ⟨it', hit', rfl⟩ := List.mem_map.1 hit
    obtain ⟨langs', ha, _⟩ := C93_calculation _ env entity role b ct cr cl hct it' hit'
    exact key ha hn hc

/-- **C149, what holds.** A row shows no facts but those of concepts of which its reference is spelled with the location of the
namespace of the concept as the reference to the schema spells it, and with the id of the concept. -/
theorem C149_row_partial {Φ : Type} (hperm : ∀ ws, (sched ws).Perm ws) (hl : load d w fuel sched = some (.done (some (fo, h))))
    (root : Xml) (inst : Disc.InstanceFile) (hroot : EntryRoot d root inst) (file : InstFile) (hfile : instanceFile root = some file)
    (tree : List Arc → String → Node) (env : GridEnv Φ) (hs : ∀ langs, (env.source langs).find = Query.findFact (values h.instances))
    (spanish : Date → Option String) (gs : Schedule) (b : Books) (entity role : String) (g : Grids Φ)
    (hg : renderGrids (renderFolder w fo h tree) env spanish gs b entity role = .done g) (href : String) (x : Φ) (hx : InRow g href x) :
    ∃ langs, x = (env.source langs).render none ∨
      ∃ k ∈ root.kids, ¬ Reserved k.name.loc ∧ ∃ f, FactOf (instanceWorld w fo file) (fact k) f ∧ x = (env.source langs).render (some f) ∧
        ∃ l c, Disc.Locates d.env inst k.name.space l ∧ Declares (queryEnv w fo) l c ∧ c.name = k.name ∧ href = l ++ "#" ++ c.id := by
  obtain ⟨langs, ctx, hx⟩ := inRow_find hg hx
  refine ⟨langs, ?_⟩
  rw [hs] at hx
  cases hf : Query.findFact (values h.instances) href ctx with
  | none => rw [hf] at hx; exact .inl hx
  | some f =>
    rw [hf] at hx
    right
    obtain ⟨i, hv, hfs⟩ := loaded_facts hl hroot hfile
    have hmem := List.mem_of_find?_eq_some hf
    rw [hv, List.flatMap_cons, List.flatMap_nil, List.append_nil] at hmem
    have hhref : f.href = href := by
      have := List.find?_some hf
      simp only [decide_eq_true_eq] at this
      exact this.1
    obtain ⟨k, hk, hres, hfo⟩ := (hfs f).1 hmem
    obtain ⟨c, hq⟩ := hfo.concept
    obtain ⟨l, hl', hh, hd, hn⟩ := (C75_name_query (queryEnv w fo) k.name.space k.name.loc).2 _ _ ((nameQuery_iff _ _ _ _).2 hq)
    obtain ⟨fo0, h1, rfl, _⟩ := load_some hl
    obtain ⟨_, _, c3, _⟩ := C12_collects_reachable d.env fuel sched hperm fo0 h1
    obtain ⟨key', inst', hE', hloc⟩ := c3 _ _ hl'
    obtain ⟨key, hE, _⟩ := hroot
    obtain ⟨rfl, rfl⟩ := entryInstance_unique hE hE'
    exact ⟨k, hk, hres, f, hfo, hx, l, c, hloc, hd, hn, by rw [← hhref, hh]⟩

/-- **C149 fails.** A row whose reference spells the location otherwise is empty. -/
theorem C149_respelled_fails {Φ : Type} (hperm : ∀ ws, (sched ws).Perm ws) (hl : load d w fuel sched = some (.done (some (fo, h))))
    (root : Xml) (inst : Disc.InstanceFile) (hroot : EntryRoot d root inst) (file : InstFile) (hfile : instanceFile root = some file)
    (tree : List Arc → String → Node) (env : GridEnv Φ) (hs : ∀ langs, (env.source langs).find = Query.findFact (values h.instances))
    (spanish : Date → Option String) (gs : Schedule) (b : Books) (entity role : String) (g : Grids Φ)
    (hg : renderGrids (renderFolder w fo h tree) env spanish gs b entity role = .done g) (href : String)
    (hother : ∀ ns l id, Disc.Locates d.env inst ns l → href ≠ l ++ "#" ++ id) (x : Φ) (hx : InRow g href x) :
    ∃ langs, x = (env.source langs).render none := by
  obtain ⟨langs, h | ⟨_, _, _, _, _, _, l, c, hloc, _, _, hh⟩⟩ := C149_row_partial hperm hl root inst hroot file hfile tree env hs spanish gs b entity role g hg href x hx
  · exact ⟨langs, h⟩
  · exact absurd hh (hother _ _ _ hloc)

/-! A folder with two rows for one concept, which the second spells `./x.xsd#x_Cash`. -/

def spelledLinks : Xml :=
  .mk ⟨LINK, "linkbase"⟩ [] "" "" [
    .mk ⟨LINK, "roleRef"⟩ [⟨⟨"", "roleURI"⟩, "r"⟩, ⟨⟨XLINK, "href"⟩, "x.xsd#r"⟩] "" "" [],
    .mk ⟨LINK, "presentationLink"⟩ [⟨⟨XLINK, "type"⟩, "extended"⟩, ⟨⟨XLINK, "role"⟩, "r"⟩] "" "" [
      .mk ⟨LINK, "loc"⟩ [⟨⟨XLINK, "type"⟩, "locator"⟩, ⟨⟨XLINK, "href"⟩, "x.xsd#x_Cash"⟩, ⟨⟨XLINK, "label"⟩, "cash"⟩] "" "" [],
      .mk ⟨LINK, "loc"⟩ [⟨⟨XLINK, "type"⟩, "locator"⟩, ⟨⟨XLINK, "href"⟩, "./x.xsd#x_Cash"⟩, ⟨⟨XLINK, "label"⟩, "again"⟩] "" "" [],
      .mk ⟨LINK, "presentationArc"⟩ [⟨⟨XLINK, "type"⟩, "arc"⟩, ⟨⟨XLINK, "arcrole"⟩, PresentationArcrole⟩, ⟨⟨XLINK, "from"⟩, "root"⟩,
        ⟨⟨XLINK, "to"⟩, "cash"⟩, ⟨⟨"", "order"⟩, "1"⟩] "" "" [],
      .mk ⟨LINK, "presentationArc"⟩ [⟨⟨XLINK, "type"⟩, "arc"⟩, ⟨⟨XLINK, "arcrole"⟩, PresentationArcrole⟩, ⟨⟨XLINK, "from"⟩, "root"⟩,
        ⟨⟨XLINK, "to"⟩, "again"⟩, ⟨⟨"", "order"⟩, "2"⟩] "" "" []]]

def spelledDisk : Disk :=
  { diskDemo with
    read := fun n => if n = "r.xml" then some reportXml else if n = "x.xsd" then some diskSchema else if n = "p.xml" then some spelledLinks else none }

def spelledTree : List Arc → String → Node := fun _ _ => .mk "" .zero [.mk "cash" F64.zero [], .mk "again" F64.zero []]

def spelledGrids (fo : Files) (h : Hydratable) : Run (Grids (Option Fact)) :=
  renderGrids (renderFolder diskWorld fo h spelledTree) ⟨id, id, plainSource (values h.instances)⟩ (fun _ => none)
    { langs := [0, 0, 0, 1, 1, 1, 2, 2, 2], roles := [0, 0, 0, 1, 1, 1, 2, 2, 2], grow := fun _ => 0 } (books h (fun _ => "") id) "s/1" "r"

def spelledShown : Option (List String × List (List (Option Fact))) :=
  match load spelledDisk diskWorld 3 id with
  | some (.done (some (fo, h))) =>
    match spelledGrids fo h with
    | .done g => some (g.p.rows.map IndentedLabel.href, g.p.quadrant.facts)
    | _ => none
  | _ => none

theorem spelledShown_eq : spelledShown = some (["x.xsd#x_Cash", "./x.xsd#x_Cash"],
    [[some ⟨"x.xsd#x_Cash", "f1", "c", "usd", -2147483647, false, "100"⟩], [none]]) := by decide +kernel

theorem spelledLike : DiskLike spelledDisk where
  only := by
    intro l x h hx
    simp only [spelledDisk] at h
    split at h
    · cases h; exact absurd hx (by decide)
    · split at h
      · cases h; exact ⟨‹_›, rfl⟩
      · split at h
        · cases h; exact absurd hx (by decide)
        · cases h
  schema := rfl
  noUrl := rfl

/-- The hypotheses of `C149_respelled_fails` hold of it, and the row has a cell. -/
example : ∃ fo h file g, load spelledDisk diskWorld 3 id = some (.done (some (fo, h))) ∧ EntryRoot spelledDisk reportXml diskInst ∧
    instanceFile reportXml = some file ∧ spelledGrids fo h = .done g ∧ InRow g "./x.xsd#x_Cash" none ∧
    (∀ ns l id, Disc.Locates spelledDisk.env diskInst ns l → "./x.xsd#x_Cash" ≠ l ++ "#" ++ id) := by
  have he := spelledShown_eq
  unfold spelledShown at he
  split at he
  · rename_i fo h hl
    split at he
    · rename_i g hg
      simp only [Option.some.injEq, Prod.mk.injEq] at he
      refine ⟨fo, h, _, g, hl, ⟨_, ⟨"r.xml", rfl, rfl, .inr ⟨(Disc.plain_iff _).2 (by decide +kernel), rfl⟩⟩, rfl⟩, rfl, hg, .inl ⟨1, 0, ?_, ?_⟩, ?_⟩
      · rw [he.1]; rfl
      · rw [he.2]; exact ⟨_, rfl, rfl⟩
      · intro ns l id hloc he
        have hread : ∀ l f, spelledDisk.env.readSchema l = some f → l = "x.xsd" ∧ f.imp = [] ∧ f.incl = [] := by
          intro l f h
          obtain ⟨x, hx, hs⟩ := Option.bind_eq_some_iff.1 (show (spelledDisk.read l).bind discoveredSchema = some f from h)
          obtain ⟨rfl, rfl⟩ := spelledLike.only _ _ hx ((C99_schema x).2 f |>.1 hs).1
          cases hs
          exact ⟨rfl, rfl, rfl⟩
        have hlx : l = "x.xsd" := by
          rcases hloc with ⟨i, _, f, hr⟩ | ⟨l', f, hr, hc⟩
          · exact (hread _ _ hr.2.2.1.2.2).1
          · obtain ⟨_, e1, e2⟩ := hread _ _ (Disc.reach_read hr)
            rw [e1, e2] at hc
            rcases hc with ⟨_, h, _⟩ | ⟨_, h, _⟩ <;> cases h
        subst hlx
        have := congrArg (fun s => s.toList.head?) he
        simp only [String.toList_append] at this
        exact absurd this (by simp)
    · cases he
  · cases he

end Telefacts
