import Verif.Spec.Isolation
import Verif.Props.ServerExpress
/-! # C168: a folder is answered for as if there were no other -/
namespace Telefacts
open Telefacts.Server Telefacts.Cache Telefacts.Spec Telefacts.Hydrate

theorem Spec.ShareFolder.swap {id : String} {site site' : Site} (h : ShareFolder id site site') : ShareFolder id site' site := by
  obtain ⟨⟨d, x, e⟩, h1, h2⟩ := h
  refine ⟨⟨site.disk, site.document, ?_⟩, h1.symm, h2.symm⟩
  rw [e]

theorem direct_share {id : String} {site site' : Site} (h : ShareFolder id site site') {r : Req} (hr : Cache.folderOf r = some id)
    {o : Out Loaded Store.Bytes Unit} (hd : Direct (backend site) r o) : Direct (backend site') r o := by
  obtain ⟨⟨disk, document, e⟩, h1, h2⟩ := h
  subst e
  simp only at h1 h2
  have hdis : ∀ m, (backend site).discover id m → (backend { site with disk := disk, document := document }).discover id m := by
    intro m hm
    show discovers _ id m
    change discovers site id m at hm
    unfold discovers at hm ⊢
    simp only [h1]
    exact hm
  have hends : ∀ w r, Ends site id w r → Ends { site with disk := disk, document := document } id w r := by
    intro w r hw
    unfold Ends at hw ⊢
    simp only [h1]
    exact hw
  have hhyd : ∀ x, (backend site).hydrate id x → (backend { site with disk := disk, document := document }).hydrate id x := by
    intro x hx
    change hydrates site id x at hx
    show hydrates _ id x
    unfold hydrates at hx ⊢
    split at hx
    · exact ⟨hx.1, hends _ _ hx.2⟩
    · obtain ⟨a, w, b⟩ := hx; exact ⟨a, w, hends _ _ b⟩
    · obtain ⟨w, b⟩ := hx; exact ⟨w, hends _ _ b⟩
    · exact hx
  have hfold : ∀ l, (backend site).hydrate id (some (some l, none)) → l.folder = id := fun l hl => hl.1
  have hcomp : ∀ l x, l.folder = id → Computes (backend site) r l x → Computes (backend { site with disk := disk, document := document }) r l x := by
    intro l x hl hx
    have hb : (backend { site with disk := disk, document := document }).docBytes l = (backend site).docBytes l := by
      simp only [backend, documentBytes, hl, h1, h2]
    have he : (backend { site with disk := disk, document := document }).entryName l = (backend site).entryName l := by
      simp only [backend, hl, h1]
    cases r with
    | catalog _ =>
      change x = some (some (catalogBytes site l), none) at hx
      show x = some (some (catalogBytes _ l), none)
      unfold catalogBytes at hx ⊢
      simp only [hl, h1] at hx ⊢
      exact hx
    | renderable _ hash =>
      simp only [Computes, hb, he] at hx ⊢
      exact hx
    | express _ _ _ => exact hx
    | schema _ => exact hx.elim
    | utr => exact hx.elim
    | names => exact hx.elim
  cases hd with
  | undiscovered _ id' m a b => rw [hr] at a; cases a; exact .undiscovered _ id m hr (hdis _ b)
  | hydratePanic _ id' a b c => rw [hr] at a; cases a; exact .hydratePanic _ id hr (hdis _ b) (hhyd _ c)
  | unhydrated _ id' l m a b c => rw [hr] at a; cases a; exact .unhydrated _ id l m hr (hdis _ b) (hhyd _ c)
  | computePanic _ id' l a b c d => rw [hr] at a; cases a; exact .computePanic _ id l hr (hdis _ b) (hhyd _ c) (hcomp _ _ (hfold _ c) d)
  | computed _ id' l x y a b c d => rw [hr] at a; cases a; exact .computed _ id l x y hr (hdis _ b) (hhyd _ c) (hcomp _ _ (hfold _ c) d)
  | schema url s h => cases hr
  | schemaErr url h => cases hr
  | utr s h => cases hr
  | utrErr h => cases hr
  | names s h => cases hr
  | namesErr h => cases hr

/-- **C168.** What can be answered about a folder does not depend on the other folders: it is the same in every site that has the folder. -/
theorem C168_answers (id : String) (site site' : Site) (h : ShareFolder id site site') (r : Req) (hr : Cache.folderOf r = some id)
    (o : Out Loaded Store.Bytes Unit) : Direct (backend site') r o ↔ Direct (backend site) r o :=
  ⟨direct_share h.swap hr, direct_share h hr⟩

/-- **C168, with the cache.** In every history of a server with any other folders, whatever is asked about them and when, a successful answer
about the folder is an answer about it alone, or repeats the body of a failed one. -/
theorem C168_served (id : String) (site site' : Site) (h : ShareFolder id site site') (allowed : Req → Prop) (hn : Normal allowed) (dry : Bool)
    (s : State Loaded Store.Bytes Unit) (hs : Steps (backend site') dry allowed State.init s) (r : Req) (hr : Cache.folderOf r = some id)
    (o : Out Loaded Store.Bytes Unit) (ho : (r, o) ∈ s.log) :
    Direct (backend site) r o ∨
    (∃ b e, o = .ret (.bytes b) none ∧ Direct (backend site) r (.ret (.bytes b) (some e))) ∨
    (o = .panic ∧ ∃ e, Direct (backend site) r (.ret (.bytes none) (some e))) := by
  rcases C60_answers (backend site') (backend_sane site') allowed hn dry s hs r o ho with a | ⟨_, b, e, a1, a2⟩ | ⟨_, a1, e, a2⟩
  · exact .inl (direct_share h.swap hr a)
  · exact .inr (.inl ⟨b, e, a1, direct_share h.swap hr a2⟩)
  · exact .inr (.inr ⟨a1, e, direct_share h.swap hr a2⟩)

/-- `inkSite` with no other folder. -/
def aloneSite : Site :=
  { inkSite with
    disk := fun id => if id = "a-1" then inkDisk else ⟨none, [], fun _ => none, fun _ => false, fun _ => none, fun _ => false⟩ }

/-- The hypotheses are met, and something is answered about the folder. -/
example : ShareFolder "a-1" inkSite aloneSite ∧ aloneSite.disk "a-2" ≠ inkSite.disk "a-2" ∧
    ∃ s b, Steps (backend aloneSite) true inkCalls State.init s ∧ (.express "a-1" "x:Cash" "c", .ret (.bytes (some b)) none) ∈ s.log := by
  have hshare : ShareFolder "a-1" inkSite aloneSite := ⟨⟨_, _, rfl⟩, rfl, rfl⟩
  refine ⟨hshare, fun e => ?_, ?_⟩
  · have : (aloneSite.disk "a-2").entryName = (inkSite.disk "a-2").entryName := by rw [e]
    exact absurd this (by decide)
  · obtain ⟨fo, h, hl, b, hb⟩ := ink_load
    have hdis : (backend inkSite).discover "a-1" none := by
      obtain ⟨fo0, h1, _⟩ := load_some hl
      exact discovers_ok (fun _ => .refl _) h1
    have hx : (backend inkSite).express "x:Cash" "c" ⟨"a-1", inkWorld, fo, h⟩ (some (some b, none)) :=
      ⟨_, demoChoice_fair h, by rw [hb]; exact Eq.refl _⟩
    have hhyd : (backend inkSite).hydrate "a-1" (some (some ⟨"a-1", inkWorld, fo, h⟩, none)) := ⟨rfl, ink_loads hl⟩
    have hd' : Direct (backend inkSite) (.express "a-1" "x:Cash" "c") (.ret (.bytes (some b)) none) :=
      .computed (.express "a-1" "x:Cash" "c") "a-1" ⟨"a-1", inkWorld, fo, h⟩ _ _ rfl hdis hhyd (by unfold Computes; exact hx)
    obtain ⟨s', h1, l1, _⟩ := C60_every (backend aloneSite) inkCalls State.init (.express "a-1" "x:Cash" "c") rfl _ ⟨_, rfl⟩
      ((C168_answers "a-1" inkSite aloneSite hshare _ rfl _).2 hd')
    exact ⟨s', b, h1, by rw [l1]; simp⟩

end Telefacts
