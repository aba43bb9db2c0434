import Verif.Props.Instance
import Verif.Props.Attr
import Verif.Props.Schema
import Verif.Model.XmlText
/-! # C166: typed members that declare their namespaces themselves

`encoding/xml` then delivers the namespace instead of the prefix. -/
namespace Telefacts
open Telefacts.Instance Telefacts.Schema Telefacts.Linkbase Telefacts.Spec

theorem split_unique {p q l r : String} (hp : ':' ∉ p.toList) (hq : ':' ∉ q.toList) (h : p ++ ":" ++ l = q ++ ":" ++ r) : l = r := by
  have h := congrArg String.toList h
  simp only [String.toList_append] at h
  have key : ∀ (a b c d : List Char), ':' ∉ a → ':' ∉ b → a ++ [':'] ++ c = b ++ [':'] ++ d → c = d := by
    intro a
    induction a with
    | nil =>
      intro b c d _ hb h
      cases b with
      | nil => simpa using h
      | cons y b =>
        simp only [List.nil_append, List.cons_append, List.cons.injEq] at h
        exact absurd (h.1 ▸ List.mem_cons_self) hb
    | cons x a ih =>
      intro b c d ha hb h
      cases b with
      | nil =>
        simp only [List.nil_append, List.cons_append, List.cons.injEq] at h
        exact absurd (h.1 ▸ List.mem_cons_self) ha
      | cons y b =>
        simp only [List.cons_append, List.cons.injEq] at h
        exact ih b c d (fun h => ha (List.mem_cons_of_mem _ h)) (fun h => hb (List.mem_cons_of_mem _ h)) h.2
  exact String.toList_inj.1 (key _ _ _ _ hp hq h)

/-- A name with two colons has one in its local part. -/
theorem colon_loc {tl : List Attr} {p rest l : String} (hp : ':' ∉ p.toList) : ':' ∈ (xmlns tl (p ++ ":" ++ (rest ++ ":" ++ l))).loc.toList := by
  have hq := (C01_xmlns_resolves tl (p ++ ":" ++ (rest ++ ":" ++ l)) _).1 rfl
  have hc : ':' ∈ (rest ++ ":" ++ l).toList := by simp
  generalize xmlns tl (p ++ ":" ++ (rest ++ ":" ++ l)) = n at hq
  generalize hz : p ++ ":" ++ (rest ++ ":" ++ l) = z at hq
  cases hq with
  | unprefixed _ u h1 h2 => exact absurd (by rw [← hz]; simp) h1
  | noLocal q h1 =>
    exfalso
    have := split_unique (l := rest ++ ":" ++ l) (r := "") hp h1 (by rw [hz]; exact String.toList_inj.1 (by simp))
    rw [this] at hc; simp at hc
  | bound q r u h1 h2 h3 h4 => rw [← split_unique hp h1 hz]; exact hc
  | unbound q r d h1 h2 h3 h4 => rw [← split_unique hp h1 hz]; exact hc

/-- **C166 (fails).** The value of a typed member whose domain element comes with its namespace, not a prefix, is never read: nothing is
recorded, or the program panics. (The names of concepts have no colons; namespaces have.) -/
theorem C166_fails (w : World) (hd : ∀ l c, Declares w.env l c → ':' ∉ c.name.loc.toList) (dimHref inner u l s : String)
    (hu : ':' ∈ u.toList) (ht : w.tokens inner = ⟨[.start ⟨u, l⟩, .text s, .stop ⟨u, l⟩], true⟩) :
    hydrateTypedMembers w dimHref inner = .done ([], []) ∨ hydrateTypedMembers w dimHref inner = .panic := by
  have hn : ':' ∈ (xmlns w.tl (u ++ ":" ++ l)).loc.toList := by
    obtain ⟨a, b, hab, ha⟩ := List.eq_append_cons_of_mem hu
    have e : u ++ ":" ++ l = String.ofList a ++ ":" ++ (String.ofList b ++ ":" ++ l) := String.toList_inj.1 (by simp [hab])
    rw [e]
    exact colon_loc (by simpa using ha)
  unfold hydrateTypedMembers
  cases hashQuery w.env w.env.namespaces dimHref with
  | err _ => exact .inl rfl
  | panic => exact .inr rfl
  | ok r =>
    simp only [ht]
    generalize hx : xmlns w.tl (u ++ ":" ++ l) = n at hn
    by_cases h0 : n.space = ""
    · left
      by_cases hs : w.trim s = ""
      · simp only [walk, walkStep, hx, if_pos h0, if_pos hs]
      · simp only [walk, walkStep, hx, if_pos h0, if_neg hs]
        cases hq : nameQuery w.env r.2.name.space r.2.name.loc with
        | err _ => rfl
        | panic => exact absurd hq (nameQuery_ne_panic _ _ _)
        | ok _ => rfl
    · cases hq : nameQuery w.env n.space n.loc with
      | err _ => left; simp only [walk, walkStep, hx, if_neg h0, hq]
      | panic => exact absurd hq (nameQuery_ne_panic _ _ _)
      | ok x =>
        cases x with
        | some p =>
          obtain ⟨l', _, _, h1, h2⟩ := (C75_name_query w.env _ _).2 p.1 p.2 hq
          have := hd l' p.2 h1
          rw [h2] at this
          exact absurd hn this
        | none =>
          right
          by_cases hs : w.trim s = ""
          · simp only [walk, walkStep, hx, if_neg h0, hq, if_pos hs]
          · simp only [walk, walkStep, hx, if_neg h0, hq, if_neg hs]

/-- **C166 (partial).** With a prefix that the root declares, the value is read. -/
theorem C166_root_partial (w : World) (dimHref inner : String) (q : XName) (s href : String) (c dim : Concept) (ns : String)
    (hdim : hashQuery w.env w.env.namespaces dimHref = .ok (ns, dim))
    (ht : w.tokens inner = ⟨[.start q, .text s, .stop q], true⟩) (hs : w.trim s ≠ "")
    (hr : Resolves w (q.space ++ ":" ++ q.loc) href c) :
    hydrateTypedMembers w dimHref inner = .done ([(href, w.trim s)], [⟨1, dimHref, href⟩]) := by
  obtain ⟨h1, h2⟩ := (resolves_iff _ _ _ _).1 hr
  have hc : c.name = xmlns w.tl (q.space ++ ":" ++ q.loc) := by
    obtain ⟨_, _, _, _, h⟩ := (C75_name_query w.env _ _).2 _ _ h2
    exact h
  unfold hydrateTypedMembers
  rw [hdim]
  simp only [ht, walk, walkStep, if_neg h1, if_neg hs, h2, hc]
  simp [mapSet]

/-- Both happen; the texts are as in a file. -/
def ownWorld (tl : List Attr) : World :=
  { instWorld with tl := tl, tokens := XmlText.tokens ⟨fun _ => false, fun _ => false, fun _ => true⟩ }

theorem ownDeclares (l : String) (c : Concept) (h : Declares instWorld.env l c) : ':' ∉ c.name.loc.toList := by
  obtain ⟨file, hf, e, he, hc⟩ := h
  have hn := (plainAttr_iff _ _ _).2 hc.name.1
  have hfile : file = instFile ∨ file = ⟨[], [], []⟩ := by
    rcases hf.2 with ⟨h, _⟩ | ⟨_, h | h⟩
    · cases h
    · left
      simp only [instWorld, mapGet] at h
      split at h
      · exact (Option.some.inj h).symm
      · cases h
    · exact .inr h.2
  rcases hfile with rfl | rfl
  · have : ∀ e ∈ instFile.elements, (plainAttr e.attrs "name").all (fun s => decide (':' ∉ s.toList)) = true := by decide +kernel
    have := this e he
    rw [hn] at this
    simpa using this
  · cases he

def ownText : String := "<d:Dom xmlns:d=\"http://d\">7</d:Dom>"

theorem ownText_tokens (tl : List Attr) :
    (ownWorld tl).tokens ownText = ⟨[.start ⟨"http://d", "Dom"⟩, .text "7", .stop ⟨"http://d", "Dom"⟩], true⟩ := by
  show XmlText.tokens ⟨fun _ => false, fun _ => false, fun _ => true⟩ ownText = _
  decide +kernel

/-- **C166 (witness).** Without a default namespace the value is lost; with one the program panics. -/
theorem C166_witness :
    hydrateTypedMembers (ownWorld [⟨⟨"xmlns", "x"⟩, "http://x"⟩]) "x.xsd#x_Dim" ownText = .done ([], []) ∧
    hydrateTypedMembers (ownWorld [⟨⟨"", "xmlns"⟩, "http://x"⟩]) "x.xsd#x_Dim" ownText = .panic := by decide +kernel

example (tl : List Attr) := C166_fails (ownWorld tl) ownDeclares "x.xsd#x_Dim" ownText "http://d" "Dom" "7" (by decide) (ownText_tokens tl)

example : ∃ c dim ns, hashQuery (ownWorld [⟨⟨"xmlns", "x"⟩, "http://x"⟩]).env (ownWorld [⟨⟨"xmlns", "x"⟩, "http://x"⟩]).env.namespaces "x.xsd#x_Dim" = .ok (ns, dim) ∧
    (ownWorld [⟨⟨"xmlns", "x"⟩, "http://x"⟩]).tokens "<x:A>7</x:A>" = ⟨[.start ⟨"x", "A"⟩, .text "7", .stop ⟨"x", "A"⟩], true⟩ ∧
    Resolves (ownWorld [⟨⟨"xmlns", "x"⟩, "http://x"⟩]) "x:A" "x.xsd#x_A" c := by
  have h1 : (match hashQuery instWorld.env instWorld.env.namespaces "x.xsd#x_Dim" with | .ok _ => true | _ => false) = true := by decide +kernel
  have h2 : (match nameQuery instWorld.env "http://x" "A" with | .ok (some p) => decide (p.1 = "x.xsd#x_A") | _ => false) = true := by decide +kernel
  cases h3 : hashQuery instWorld.env instWorld.env.namespaces "x.xsd#x_Dim" with
  | err _ => rw [h3] at h1; cases h1
  | panic => rw [h3] at h1; cases h1
  | ok p =>
    cases h4 : nameQuery instWorld.env "http://x" "A" with
    | err _ => rw [h4] at h2; cases h2
    | panic => rw [h4] at h2; cases h2
    | ok r =>
      cases r with
      | none => rw [h4] at h2; cases h2
      | some r =>
        rw [h4] at h2
        simp only [decide_eq_true_eq] at h2
        refine ⟨r.2, p.2, p.1, h3, by decide +kernel, (resolves_iff _ _ _ _).2 ⟨by decide +kernel, ?_⟩⟩
        have e : xmlns (ownWorld [⟨⟨"xmlns", "x"⟩, "http://x"⟩]).tl "x:A" = ⟨"http://x", "A"⟩ := by decide +kernel
        rw [e, ← h2]
        exact h4

end Telefacts
