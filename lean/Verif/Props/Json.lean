import Verif.Proof.Codec
import Verif.Proof.Order
import Verif.Proof.Catalog
import Verif.Proof.Store
import Verif.Props.Store
import Verif.Props.Catalog
import Verif.Props.Schema
/-! # C109-C112: the JSON files and responses -/
namespace Telefacts
open Telefacts.Json Telefacts.Catalog Telefacts.Store Telefacts.Schema Telefacts.Instance

/-! ## C109 -/

/-- **C109a.** What is written for a value is a JSON text, and it can only be read as that value. -/
theorem C109_reads_back (v : Json) (h : Written v) (w : Json) : IsText (text v) w ↔ w = v := by
  have := isText_text v h [] [] blank_nil blank_nil
  simp only [List.nil_append, List.append_nil] at this
  exact ⟨fun hw => isText_unique _ _ _ hw this, fun hw => hw ▸ this⟩

/-- **C109b.** The text has no control character (so it is one line), none of `<`, `>`, `&` (so no strings of a report can end an
HTML element) and no JavaScript line separator. -/
theorem C109_tame (v : Json) (h : Written v) : ∀ c ∈ text v, Tame c := tame_text v h

/-- **C109c.** A text is read as a value exactly if the grammar says so. -/
theorem C109_reader (cs : List Char) (v : Json) : parse cs = some v ↔ IsText cs v := parse_iff cs v

example : Written (.obj [("a<b", .arr [.num "-1.5e+3".toList, .str "\"&\n", .null])]) := by
  simp only [Written, WrittenMembers, WrittenItems, and_true]
  exact (isNumber_iff _).1 (by decide +kernel)

example : text (.obj [("a<b", .arr [.num "-1.5e+3".toList, .str "\"&\n", .null])]) =
    "{\"a\\u003cb\":[-1.5e+3,\"\\\"\\u0026\\n\",null]}".toList := by decide +kernel

/-! ## C110 -/

theorem sorted_members (m : GoMap String Json) (hm : MapWF m) :
    (stableSort (fun a b => decide (a.1 < b.1)) m).Pairwise fun a b => a.1 < b.1 := by
  have h1 := (stableSortedOn_stableSort (before := fun a b : String => a < b) (key := Prod.fst)
    (less := fun a b : String × Json => decide (a.1 < b.1)) strictTotal_string (by intro a b; simp) m).2.1
  have h2 : (stableSort (fun a b : String × Json => decide (a.1 < b.1)) m).Pairwise fun a b => a.1 ≠ b.1 := by
    have := ((stableSort_perm (less := fun a b : String × Json => decide (a.1 < b.1)) m).map Prod.fst).nodup_iff.2 hm
    exact List.pairwise_map.1 this
  exact (h1.and h2).imp (fun {a b} h => by
    rcases str_trichotomy a.1 b.1 with h' | h' | h'
    · exact h'
    · exact absurd h' h.2
    · exact absurd h' h.1)

theorem ofMap_congr (m m' : GoMap String Json) (hm : MapWF m) (hm' : MapWF m') (h : ∀ p, p ∈ m ↔ p ∈ m') : ofMap m = ofMap m' := by
  unfold ofMap
  congr 1
  exact strict_unique (lt := fun a b : String × Json => a.1 < b.1) (fun a => String.lt_irrefl a.1)
    (fun a b c => String.lt_trans) (sorted_members m hm) (sorted_members m' hm') (by
      intro p; rw [mem_stableSort, mem_stableSort, h])

theorem mapWF_map {V W : Type} (m : GoMap String V) (f : V → W) (h : MapWF m) : MapWF (m.map fun p => (p.1, f p.2)) := by
  unfold MapWF mapKeys at *
  rwa [List.map_map]

/-- **C110a.** The bytes of the catalog do not depend on the order in which Go iterates over its maps. -/
theorem C110_order (c c' : Catalog) (hs : c.subjects = c'.subjects) (hr : c.rsets = c'.rsets) (hd : c.documentName = c'.documentName)
    (hw : MapWF c.networks) (hw' : MapWF c'.networks) (hi : ∀ e m, (e, m) ∈ c.networks → MapWF m)
    (hi' : ∀ e m, (e, m) ∈ c'.networks → MapWF m) (hn : SameNetworks c.networks c'.networks) :
    marshalCatalog c = marshalCatalog c' := by
  unfold marshalCatalog ofCatalog
  rw [hs, hr, hd]
  congr 6
  apply ofMap_congr _ _ (mapWF_map c.networks (fun m => ofMap (m.map fun q => (q.1, Json.str q.2))) hw)
    (mapWF_map c'.networks (fun m => ofMap (m.map fun q => (q.1, Json.str q.2))) hw')
  have inner : ∀ e m m', (e, m) ∈ c.networks → (e, m') ∈ c'.networks →
      ofMap (m.map fun q => (q.1, Json.str q.2)) = ofMap (m'.map fun q => (q.1, Json.str q.2)) := by
    intro e m m' h1 h2
    apply ofMap_congr _ _ (mapWF_map m Json.str (hi e m h1)) (mapWF_map m' Json.str (hi' e m' h2))
    intro p
    simp only [List.mem_map]
    constructor
    · rintro ⟨q, hq, rfl⟩; exact ⟨q, (hn.2 e m m' h1 h2 q.1 q.2).1 hq, rfl⟩
    · rintro ⟨q, hq, rfl⟩; exact ⟨q, (hn.2 e m m' h1 h2 q.1 q.2).2 hq, rfl⟩
  intro p
  simp only [List.mem_map]
  constructor
  · rintro ⟨⟨e, m⟩, hq, rfl⟩
    obtain ⟨m', hm'⟩ := (hn.1 e).1 ⟨m, hq⟩
    exact ⟨(e, m'), hm', by simp only [inner e m m' hq hm']⟩
  · rintro ⟨⟨e, m'⟩, hq, rfl⟩
    obtain ⟨m, hm⟩ := (hn.1 e).2 ⟨m', hq⟩
    exact ⟨(e, m), hm, by simp only [inner e m m' hm hq]⟩

theorem writtenItems_iff (l : List Json) : WrittenItems l ↔ ∀ v ∈ l, Written v := by
  induction l with
  | nil => simp [WrittenItems]
  | cons v l ih => simp [WrittenItems, ih]

theorem writtenMembers_iff (l : List (String × Json)) : WrittenMembers l ↔ ∀ p ∈ l, Written p.2 := by
  induction l with
  | nil => simp [WrittenMembers]
  | cons v l ih => simp [WrittenMembers, ih]

theorem written_ofMap (m : GoMap String Json) (h : ∀ p ∈ m, Written p.2) : Written (ofMap m) := by
  unfold ofMap
  simp only [Written, writtenMembers_iff]
  exact fun p hp => h p ((mem_stableSort _).1 hp)

theorem written_ofCatalog (c : Catalog) : Written (ofCatalog c) := by
  unfold ofCatalog
  simp only [Written, writtenMembers_iff]
  intro p hp
  simp only [List.mem_cons, List.not_mem_nil, or_false] at hp
  rcases hp with rfl | rfl | rfl | rfl
  · simp only [Written, writtenItems_iff, List.mem_map]
    rintro v ⟨s, _, rfl⟩
    simp [ofSubject, ofEntity, Written, WrittenMembers]
  · simp only [Written, writtenItems_iff, List.mem_map]
    rintro v ⟨s, _, rfl⟩
    simp [ofRSet, Written, WrittenMembers]
  · apply written_ofMap
    simp only [List.mem_map]
    rintro p ⟨q, _, rfl⟩
    apply written_ofMap
    simp only [List.mem_map]
    rintro p ⟨q, _, rfl⟩
    simp [Written]
  · simp [Written]

theorem member_ofMap (m : GoMap String Json) (hm : MapWF m) (k : String) (v : Json) : Member (ofMap m) k v ↔ (k, v) ∈ m := by
  unfold Member ofMap
  simp only [Json.obj.injEq]
  have hs := sorted_members m hm
  constructor
  · rintro ⟨a, b, h, _⟩
    rw [← mem_stableSort (less := fun a b : String × Json => decide (a.1 < b.1)), h]
    simp
  · intro h
    rw [← mem_stableSort (less := fun a b : String × Json => decide (a.1 < b.1))] at h
    obtain ⟨a, b, hab⟩ := List.append_of_mem h
    refine ⟨a, b, hab, ?_, ?_⟩
    · intro q hq heq
      rw [hab, List.pairwise_append] at hs
      have := hs.2.2 q hq (k, v) (by simp)
      rw [heq] at this
      exact String.lt_irrefl _ this
    · intro q hq heq
      rw [hab, List.pairwise_append, List.pairwise_cons] at hs
      have := hs.2.1.1 q hq
      rw [heq] at this
      exact String.lt_irrefl _ this

theorem member_inj (w : Json) (k : String) (v v' : Json) (h : Member w k v) (h' : Member w k v') : v = v' := by
  obtain ⟨a, b, rfl, ha, hb⟩ := h
  obtain ⟨a', b', heq, ha', hb'⟩ := h'
  have heq := Json.obj.inj heq
  have hm : (k, v) ∈ a' ++ (k, v') :: b' := by rw [← heq]; simp
  simp only [List.mem_append, List.mem_cons, Prod.mk.injEq, true_and] at hm
  rcases hm with hm | hm | hm
  · exact absurd rfl (ha' _ hm)
  · exact hm
  · exact absurd rfl (hb' _ hm)

/-- **C110b.** Whoever reads the catalog as JSON finds its subjects and relationship sets in order, its document name, and for each
entity and role exactly the slug of the catalog. -/
theorem C110_contents (c : Catalog) (hw : MapWF c.networks) (hi : ∀ e m, (e, m) ∈ c.networks → MapWF m) :
    ∃ w, (∀ v, IsText (marshalCatalog c) v ↔ v = w) ∧
      (∃ l, Member w "Subjects" (.arr l) ∧ List.Forall₂ SubjectText l c.subjects) ∧
      (∃ l, Member w "RelationshipSets" (.arr l) ∧ List.Forall₂ RSetText l c.rsets) ∧
      Member w "DocumentName" (.str c.documentName) ∧
      ∃ n, Member w "Networks" n ∧ ∀ e r s, (∃ m, Member n e m ∧ Member m r (.str s)) ↔
        ∃ m, (e, m) ∈ c.networks ∧ (r, s) ∈ m := by
  refine ⟨ofCatalog c, C109_reads_back _ (written_ofCatalog c), ?_, ?_, ?_, ?_⟩
  · refine ⟨_, ⟨[], _, rfl, by simp, by simp⟩, ?_⟩
    rw [List.forall₂_map_left_iff, List.forall₂_same]
    intro s _
    exact ⟨⟨[], _, rfl, by simp, by simp⟩, _, ⟨[_], _, rfl, by simp, by simp⟩, ⟨[], _, rfl, by simp, by simp⟩,
      ⟨[_], _, rfl, by simp, by simp⟩⟩
  · refine ⟨_, ⟨[_], _, rfl, by simp, by simp⟩, ?_⟩
    rw [List.forall₂_map_left_iff, List.forall₂_same]
    intro s _
    exact ⟨⟨[], _, rfl, by simp, by simp⟩, ⟨[_], _, rfl, by simp, by simp⟩⟩
  · exact ⟨[_, _, _], _, rfl, by simp, by simp⟩
  · refine ⟨_, ⟨[_, _], _, rfl, by simp, by simp⟩, ?_⟩
    intro e r s
    have hmem : ∀ x, Member (ofMap (c.networks.map fun p => (p.1, ofMap (p.2.map fun q => (q.1, Json.str q.2))))) e x ↔
        ∃ m, (e, m) ∈ c.networks ∧ x = ofMap (m.map fun q => (q.1, Json.str q.2)) := by
      intro x
      rw [member_ofMap _ (mapWF_map c.networks (fun m => ofMap (m.map fun q => (q.1, Json.str q.2))) hw)]
      simp only [List.mem_map, Prod.mk.injEq]
      constructor
      · rintro ⟨⟨e', m⟩, h, rfl, rfl⟩; exact ⟨m, h, rfl⟩
      · rintro ⟨m, h, rfl⟩; exact ⟨(e, m), h, rfl, rfl⟩
    have hmem' : ∀ m, (e, m) ∈ c.networks → (Member (ofMap (m.map fun q => (q.1, Json.str q.2))) r (.str s) ↔ (r, s) ∈ m) := by
      intro m h
      rw [member_ofMap _ (mapWF_map m Json.str (hi e m h))]
      simp only [List.mem_map, Prod.mk.injEq, Json.str.injEq]
      constructor
      · rintro ⟨⟨r', s'⟩, h, rfl, rfl⟩; exact h
      · intro h; exact ⟨(r, s), h, rfl, rfl⟩
    constructor
    · rintro ⟨x, hx, hr⟩
      obtain ⟨m, hm, rfl⟩ := (hmem x).1 hx
      exact ⟨m, hm, (hmem' m hm).1 hr⟩
    · rintro ⟨m, hm, hr⟩
      exact ⟨_, (hmem _).2 ⟨m, hm, rfl⟩, (hmem' m hm).2 hr⟩


theorem mapWF_foldl {α V : Type} (key : α → String) (val : α → V) (l : List α) : ∀ m : GoMap String V, MapWF m →
    MapWF (l.foldl (fun m x => mapSet m (key x) (val x)) m) := by
  induction l with
  | nil => exact fun m h => h
  | cons x l ih => exact fun m h => ih _ (h.mapSet _ _)

theorem networks_wf (ents : List Entity) (rsets : List RSet) :
    MapWF (networks ents rsets) ∧ ∀ e m, (e, m) ∈ networks ents rsets → MapWF m := by
  have hw : MapWF (networks ents rsets) :=
    mapWF_foldl stringify (fun e => entityNetworks (stringify e) rsets) ents [] (by simp [MapWF, mapKeys])
  refine ⟨hw, fun e m h => ?_⟩
  have hg := (mapGet_iff_mem hw).2 h
  obtain ⟨x, _, rfl⟩ := (mapGet_foldl_set stringify (fun e => entityNetworks (stringify e) rsets) ents e m).1 hg
  exact mapWF_foldl RSet.roleURI (fun r => slug (stringify x) r.roleURI r.title) rsets [] (by simp [MapWF, mapKeys])

example (ents : List Entity) (rsets : List RSet) (e r s : String) (h : ∃ m, (e, m) ∈ networks ents rsets ∧ (r, s) ∈ m) :
    ∃ w n m, IsText (marshalCatalog ⟨[], rsets, networks ents rsets, "a.html"⟩) w ∧ Member w "Networks" n ∧ Member n e m ∧
      Member m r (.str s) := by
  obtain ⟨w, hw, _, _, _, n, hn, hm⟩ := C110_contents ⟨[], rsets, networks ents rsets, "a.html"⟩
    (networks_wf ents rsets).1 (networks_wf ents rsets).2
  obtain ⟨m, h1, h2⟩ := (hm e r s).2 h
  exact ⟨w, n, m, (hw w).2 rfl, hn, h1, h2⟩

/-- **C110c.** The catalog of a folder has the same bytes whatever the order in which instances and schemas are iterated over. -/
theorem C110_deterministic (query : String → String → Res String) (insts insts' : List HInstance) (schemas schemas' : List HSchema)
    (entry : Option String) (hi : insts'.Perm insts) (hs : schemas'.Perm schemas) :
    marshalCatalog (catalog query insts' schemas' entry) = marshalCatalog (catalog query insts schemas entry) := by
  have h1 : sortedEntities insts' = sortedEntities insts := by
    refine entitiesSorted_unique (sortedEntities_sorted _) (sortedEntities_sorted _) (fun e => ?_)
    simp only [mem_sortedEntities, Occurs, hi.mem_iff]
  have h2 : sortedRSets schemas' = sortedRSets schemas := by
    refine rsetsSorted_unique (sortedRSets_sorted _) (sortedRSets_sorted _) (fun e => ?_)
    simp only [mem_sortedRSets, DeclaredSet, hs.mem_iff]
  unfold catalog
  rw [h1, h2]

example : marshalCatalog (catalog (fun _ _ => .err "") [catInst [("s", "1")]] [catSchema [("http://x/r", "1 - A & B")]] none) =
    ("{\"Subjects\":[{\"Name\":\"s/1\",\"Entity\":{\"Scheme\":\"s\",\"CharData\":\"1\"}}]," ++
     "\"RelationshipSets\":[{\"Title\":\"1 - A \\u0026 B\",\"RoleURI\":\"http://x/r\"}]," ++
     "\"Networks\":{\"s/1\":{\"http://x/r\":\"" ++ slug "s/1" "http://x/r" "1 - A & B" ++ "\"}},\"DocumentName\":\"\"}").toList := by
  decide +kernel

/-! ## C111 -/

/-- **C111a.** `GetEntryFileName` accepts a metadata file exactly if it is a JSON text, nested at most 10000 deep, that is `null` or an
object with strings (or `null`) for the entry and the note; the names may be in any case, and the last entry counts. -/
theorem C111_metadata (cs : List Char) (e : String) :
    decodeEntry cs = some e ↔ ∃ v, IsText cs v ∧ Within 10000 v ∧ HasEntry v e := decodeEntry_iff cs e

theorem decode_underscore (u : Underscore) (b : List Char) (hb : Blank b) (e : String) :
    decodeEntry (text (.obj [("Entry", .str u.entry), ("Note", .str u.note)]) ++ b) = some e ↔ e = u.entry := by
  have hw : Written (.obj [("Entry", .str u.entry), ("Note", .str u.note)]) := by simp [Written, WrittenMembers]
  have ht := isText_text _ hw [] b blank_nil hb
  have hu : unmarshal (text (.obj [("Entry", .str u.entry), ("Note", .str u.note)]) ++ b) =
      some (.obj [("Entry", .str u.entry), ("Note", .str u.note)]) := by
    rw [unmarshal_iff]
    refine ⟨ht, .obj 9999 _ (fun k v h => ?_)⟩
    simp only [List.mem_cons, Prod.mk.injEq, List.not_mem_nil, or_false] at h
    rcases h with ⟨_, rfl⟩ | ⟨_, rfl⟩ <;> exact .str _ _
  have ha : ofUnderscore (.obj [("Entry", .str u.entry), ("Note", .str u.note)]) = some u := rfl
  unfold decodeEntry
  rw [hu, Option.bind_some, ha]
  simp [eq_comm]

/-- **C111b.** If the process dies while `NewFolder` writes the metadata, what is on disk afterwards is rejected by
`GetEntryFileName` or gives the entry that was to be written; it is accepted exactly if at most the final newline is missing. -/
theorem C111_truncated (md5 : String → String) (wd : String) (u : Underscore) (n : Nat) (e : String) :
    (store md5 wd).dec (((store md5 wd).enc u).take n) = some e ↔ e = u.entry ∧ ((store md5 wd).enc u).length ≤ n + 1 := by
  show decodeEntry (decodeUtf8 ((encodeUtf8 (encodeUnderscore u)).take n)) = some e ↔
    e = u.entry ∧ (encodeUtf8 (encodeUnderscore u)).length ≤ n + 1
  have hw : Written (.obj [("Entry", .str u.entry), ("Note", .str u.note)]) := by simp [Written, WrittenMembers]
  obtain ⟨p, q, hpq, h⟩ := decode_take (encodeUnderscore u) n
  have happ : ∀ a b, encodeUtf8 (a ++ b) = encodeUtf8 a ++ encodeUtf8 b := fun a b => by simp [encodeUtf8]
  have hpos : ∀ c a, 0 < (encodeUtf8 (c :: a)).length := fun c a => by
    have := c.utf8Size_pos
    simp [encodeUtf8]; omega
  have hnl : (encodeUtf8 ['\n']).length = 1 := by decide
  have htot : (encodeUtf8 (encodeUnderscore u)).length =
      (encodeUtf8 (text (.obj [("Entry", .str u.entry), ("Note", .str u.note)]))).length + 1 := by
    rw [encodeUnderscore, happ, List.length_append, hnl]
  have hq' : ∀ (x y : List Char), text (.obj [("Entry", .str u.entry), ("Note", .str u.note)]) ++ ['\n'] = x ++ y → y ≠ [] →
      ∃ y', text (.obj [("Entry", .str u.entry), ("Note", .str u.note)]) = x ++ y' ∧ y = y' ++ ['\n'] := by
    intro x y hxy hy
    obtain ⟨y', c, rfl⟩ := (List.eq_nil_or_concat y).resolve_left hy
    rw [List.concat_eq_append, ← List.append_assoc] at hxy
    obtain ⟨h1, h2⟩ := List.append_inj' hxy rfl
    exact ⟨y', h1, by rw [List.concat_eq_append, ← h2]⟩
  rcases h with ⟨h1, h2⟩ | ⟨hq, k, h2⟩
  · rw [h2]
    by_cases hq : q = []
    · subst hq
      rw [List.append_nil] at hpq
      have hlen : (encodeUtf8 (encodeUnderscore u)).length ≤ n := by
        rw [← hpq] at h1
        have := congrArg List.length h1
        rw [List.length_take] at this
        omega
      have := decode_underscore u ['\n'] (by intro c hc; simp at hc; subst hc; decide) e
      rw [← hpq, encodeUnderscore, this]
      exact ⟨fun h => ⟨h, by rw [encodeUnderscore] at hlen; omega⟩, fun h => h.1⟩
    · obtain ⟨y, hy, rfl⟩ := hq' p q hpq hq
      by_cases hy0 : y = []
      · subst hy0
        rw [List.append_nil] at hy
        have hlen : (encodeUtf8 (encodeUnderscore u)).length ≤ n + 1 := by
          have := congrArg List.length h1
          rw [List.length_take, ← hy] at this
          omega
        have := decode_underscore u [] blank_nil e
        rw [List.append_nil, hy] at this
        rw [this]
        exact ⟨fun h => ⟨h, hlen⟩, fun h => h.1⟩
      · constructor
        · intro h
          obtain ⟨v, hv, _⟩ := (decodeEntry_iff _ _).1 h
          exact absurd (object_prefix _ hw p y hy v hv) hy0
        · rintro ⟨_, hlen⟩
          have := congrArg List.length h1
          rw [List.length_take] at this
          obtain ⟨c, y, rfl⟩ := List.exists_cons_of_ne_nil hy0
          have h3 : (encodeUtf8 (text (.obj [("Entry", .str u.entry), ("Note", .str u.note)]))).length =
              (encodeUtf8 p).length + (encodeUtf8 (c :: y)).length := by rw [hy, happ, List.length_append]
          have := hpos c y
          omega
  · obtain ⟨y, hy, rfl⟩ := hq' p q hpq hq
    rw [h2]
    constructor
    · intro h
      obtain ⟨v, hv, _⟩ := (decodeEntry_iff _ _).1 h
      rw [List.replicate_succ', ← List.append_assoc] at hv
      exact absurd (isText_last _ _ _ hv) (by decide)
    · rintro ⟨rfl, hlen⟩
      exfalso
      rw [htot] at hlen
      have hT : (encodeUtf8 (text (.obj [("Entry", .str u.entry), ("Note", .str u.note)]))).length ≤ n := by omega
      have hd : ∃ r, (encodeUtf8 (encodeUnderscore u)).take n =
          encodeUtf8 (text (.obj [("Entry", .str u.entry), ("Note", .str u.note)])) ++ r ∧ (r = [] ∨ r = encodeUtf8 ['\n']) := by
        rw [encodeUnderscore, happ, List.take_append, List.take_of_length_le hT]
        refine ⟨_, rfl, ?_⟩
        have : encodeUtf8 ['\n'] = [10] := by decide
        rw [this]
        cases n - (encodeUtf8 (text (.obj [("Entry", .str u.entry), ("Note", .str u.note)]))).length with
        | zero => simp
        | succ m => simp
      obtain ⟨r, hr, hr'⟩ := hd
      rw [hr, decode_encode] at h2
      rcases hr' with rfl | rfl
      · have hlast : decodeUtf8 [] = [] := by simp [decodeUtf8]
        rw [hlast, List.append_nil] at h2
        have hT := isText_text _ hw [] [] blank_nil blank_nil
        rw [List.nil_append, List.append_nil, h2, List.replicate_succ', ← List.append_assoc] at hT
        exact absurd (isText_last _ _ _ hT) (by decide)
      · have hlast : decodeUtf8 (encodeUtf8 ['\n']) = ['\n'] := by
          have := decode_encode ['\n'] []
          simpa [decodeUtf8] using this
        rw [hlast, List.replicate_succ', ← List.append_assoc] at h2
        have := (List.append_inj' h2 rfl).2
        exact absurd this (by decide)

/-- **C111c.** The folder made by a successful `NewFolder` has the entry file that was given to it, whatever happens to other folders
and however the process is restarted. -/
theorem C111_round_trip (md5 : String → String) (wd : String) (faults : Bool) (d : Disk) (s s' : Sys)
    (h : Run (store md5 wd) faults (fresh d) s) (i : Nat) (c : Call) (hc : s.calls i = some c) (id : String)
    (hd : c.pc = .done id none) (h' : Run (store md5 wd) faults s s') :
    getEntryFileName (store md5 wd) s'.disk id = .ok c.u.entry := by
  refine (C16_created_has_metadata _ faults d s s' h i c hc id hd h').2 ?_
  have := (C111_truncated md5 wd c.u ((store md5 wd).enc c.u).length c.u.entry).2 ⟨rfl, by omega⟩
  rwa [List.take_length] at this

/-- **C111d.** At every moment, so after every crash, `GetEntryFileName` of a folder that was not there at the start fails or gives an
entry that was passed to `NewFolder`, with nothing cut off. -/
theorem C111_crash (md5 : String → String) (wd : String) (faults : Bool) (d : Disk) (s : Sys)
    (h : Run (store md5 wd) faults (fresh d) s) (id : String) (hn : d id = none) (e : String)
    (he : getEntryFileName (store md5 wd) s.disk id = .ok e) :
    ∃ u n, s.disk id = some ⟨some (((store md5 wd).enc u).take n)⟩ ∧ e = u.entry := by
  unfold getEntryFileName at he
  split at he
  · cases he
  · rename_i x hx
    rcases C16_crash_states _ faults d s h id x hx with h0 | h0 | ⟨u, n, hm⟩
    · rw [hn] at h0; cases h0
    · rw [h0] at he; cases he
    · rw [hm] at he
      simp only at he
      split at he
      · cases he
      · rename_i e' hdec
        cases he
        refine ⟨u, n, ?_, ((C111_truncated md5 wd u n _).1 hdec).1⟩
        rw [hx, ← hm]

example : decodeEntry "{\"ENTRY\": \"a.xsd\", \"x\": [[]], \"entry\": \"b\\u00e9.xml\", \"Entry\": null}".toList =
    some "bé.xml" := by decide +kernel

example : decodeEntry "{\"Entry\": 1}".toList = none ∧ decodeEntry "{\"Entry\": \"a\"".toList = none ∧
    decodeEntry "null".toList = some "" := by decide +kernel

/-! ## C112 -/

/-- **C112a.** `names.json` is accepted exactly if it is a JSON object of objects of strings (`null` allowed everywhere). -/
theorem C112_accepted (cs : List Char) : (∃ m, decodeNames cs = some m) ↔ ∃ v, IsText cs v ∧ Register v := by
  unfold decodeNames
  simp only [Option.bind_eq_some_iff, unmarshal_iff]
  constructor
  · rintro ⟨m, v, ⟨h1, _⟩, h2⟩
    exact ⟨v, h1, (ofNames_register v).1 ⟨m, h2⟩⟩
  · rintro ⟨v, h1, h2⟩
    obtain ⟨m, hm⟩ := (ofNames_register v).2 h2
    exact ⟨m, v, ⟨h1, register_within v h2 9998⟩, hm⟩

/-- **C112b.** `EntityQuery` with an accepted `names.json` returns the name registered for the scheme and identifier (of members with
the same name the last counts), and scheme/identifier if there is none. -/
theorem C112_query (cs : List Char) (v : Json) (hv : IsText cs v) (m : GoMap String (GoMap String String))
    (hm : decodeNames cs = some m) (scheme ident name : String) :
    entityQuery (.ok m) scheme ident = .ok name ↔
      Registers v scheme ident name ∨ ((∀ n, ¬ Registers v scheme ident n) ∧ name = scheme ++ "/" ++ ident) := by
  unfold decodeNames at hm
  obtain ⟨v', hv', hof⟩ := Option.bind_eq_some_iff.1 hm
  obtain rfl : v' = v := isText_unique cs _ _ ((unmarshal_iff _ _).1 hv').1 hv
  have hreg := ofNames_registers v' m hof scheme ident
  unfold entityQuery
  simp only [← hreg]
  cases h1 : mapGet m scheme with
  | none => simp [eq_comm]
  | some x =>
    cases h2 : mapGet x ident with
    | none => simp [h2, eq_comm]
    | some y => simp [h2, eq_comm]

example : ∃ m, decodeNames "{\"s\": {\"1\": \"x\"}, \"s\": {\"1\": \"A\", \"2\": null}}".toList = some m ∧
    entityQuery (.ok m) "s" "1" = .ok "A" ∧ entityQuery (.ok m) "s" "3" = .ok "s/3" :=
  ⟨[("s", [("1", "A"), ("2", "")])], by decide +kernel, by decide +kernel, by decide +kernel⟩

end Telefacts
