import Verif.Props.Attr
import Verif.Spec.Given
/-!
# C03: exactly which output prefix a namespace gets, and exactly when two share one
-/
namespace Telefacts
open Spec

/-- Every name of the name map is given its prefix by the declarations. -/
structure GInv (pre : List XpathAttr) (st : PrefixState) : Prop where
  base : PInv pre st
  given : ∀ n t, mapGet st.nameMap n = some t → GivenPrefix (declarations pre) n t

theorem Spec.Introduces.append {ds pre : List (String × String)} {o n : String} (h : Introduces ds pre o n)
    (more : List (String × String)) : Introduces (ds ++ more) pre o n := by
  obtain ⟨⟨post, rfl⟩, h2, h3⟩ := h
  exact ⟨⟨post ++ more, by simp⟩, h2, h3⟩

theorem Spec.GivenPrefix.append {ds : List (String × String)} {n t : String} (h : GivenPrefix ds n t)
    (more : List (String × String)) : GivenPrefix (ds ++ more) n t := by
  rcases h with h | ⟨pre, o, h1, h2⟩
  · exact .inl h
  · exact .inr ⟨pre, o, h1.append more, h2⟩

theorem firstFree_iff {pre : List XpathAttr} {st : PrefixState} (hi : PInv pre st) (o t : String) :
    newPrefix o (mapKeys st.prefixes) = .ok t ↔ FirstFree (declarations pre) o t := by
  rw [(C04_fresh_prefix o _).2.1 t]
  unfold FirstFree
  have : (fun c => c ∉ mapKeys st.prefixes) =
      fun c => c ∉ wellKnown.map Prod.snd ∧ c ∉ (declarations pre).map Prod.fst := by
    funext c; rw [hi.taken c, not_or]
  rw [this]

theorem ginv_step {pre : List XpathAttr} {a : XpathAttr}
    {st st' : PrefixState} (hi : GInv pre st) (h : prefixStep st a = .ok st') :
    GInv (pre ++ [a]) st' := by
  have hb := pinv_step hi.base h
  rcases prefixStep_ok h with ⟨hx, rfl⟩ | ⟨hx, t, ht, rfl⟩
  · have hd : declarations (pre ++ [a]) = declarations pre := by simp [declarations_append, hx]
    refine ⟨hb, ?_⟩
    rw [hd]; exact hi.given
  · have hd : declarations (pre ++ [a]) = declarations pre ++ [(a.name.loc, a.value)] := by
      simp [declarations_append, hx]
    refine ⟨hb, ?_⟩
    rw [hd]
    intro n t' hn
    simp only [mapGet_mapSet] at hn
    split at hn
    · rename_i he
      subst he
      cases hn
      cases hg : mapGet st.nameMap a.value with
      | some prev =>
        have : t = prev := by simp [targetPrefix, hg] at ht; exact ht.symm
        subst this
        exact (hi.given _ _ hg).append _
      | none =>
        have htn : newPrefix a.name.loc (mapKeys st.prefixes) = .ok t := by
          simpa [targetPrefix, hg] using ht
        have hk : a.value ∉ mapKeys st.nameMap := (mapGet_eq_none _ _).1 hg
        rw [hi.base.names, not_or] at hk
        exact .inr ⟨declarations pre, a.name.loc, ⟨⟨[], by simp⟩, hk.1, hk.2⟩,
          (firstFree_iff hi.base _ _).1 htn⟩
    · exact (hi.given _ _ hn).append _

theorem ginv_init : GInv [] initPrefixState := ⟨pinv_init, by
  intro n t h
  left
  have := mem_of_mapGet h
  simpa [initPrefixState, wellKnown, XBRLI, XBRLDI, XLINK, XSI, ISO4217, LINK] using this⟩

theorem wellKnown_unique {n t u : String} (h1 : (n, t) ∈ wellKnown) (h2 : (n, u) ∈ wellKnown) : t = u := by
  have hd : (wellKnown.map Prod.fst).Nodup := by decide
  have := List.inj_on_of_nodup_map hd h1 h2 rfl
  exact congrArg Prod.snd this

theorem Spec.Introduces.unique {ds pre pre' : List (String × String)} {o o' n : String}
    (h : Introduces ds pre o n) (h' : Introduces ds pre' o' n) : pre = pre' ∧ o = o' := by
  obtain ⟨⟨post, rfl⟩, _, h3⟩ := h
  obtain ⟨⟨post', he⟩, _, h3'⟩ := h'
  rw [List.append_eq_append_iff] at he
  rcases he with ⟨as, h1, h2⟩ | ⟨bs, h1, h2⟩
  · cases as with
    | nil => simp at h1 h2; exact ⟨h1.symm, h2.1⟩
    | cons x as =>
      simp at h2
      exact absurd (by rw [h1, ← h2.1]; simp) h3'
  · cases bs with
    | nil => simp at h1 h2; exact ⟨h1, h2.1.symm⟩
    | cons x bs =>
      simp at h2
      exact absurd (by rw [h1, ← h2.1]; simp) h3

theorem Spec.GivenPrefix.unique {ds : List (String × String)} {n t u : String} (h1 : GivenPrefix ds n t)
    (h2 : GivenPrefix ds n u) : t = u := by
  rcases h1 with h1 | ⟨pre, o, h1, f1⟩ <;> rcases h2 with h2 | ⟨pre', o', h2, f2⟩
  · exact wellKnown_unique h1 h2
  · exact absurd (List.mem_map.2 ⟨_, h1, rfl⟩) h2.2.1
  · exact absurd (List.mem_map.2 ⟨_, h2, rfl⟩) h1.2.1
  · obtain ⟨rfl, rfl⟩ := h1.unique h2
    exact firstWith_unique f1 f2

theorem outputPrefix_unique {np : NameProvider} {p t u : String} (h1 : OutputPrefix np p t)
    (h2 : OutputPrefix np p u) : t = u := by
  have e := (h1 "").symm.trans (h2 "")
  simp only [String.append_empty, Res.ok.injEq] at e
  rw [← String.toList_inj] at e
  simpa [String.toList_inj] using e

/-- C03, exactly (1): for every document the provider accepts — also one that declares a prefix
twice — a prefix bound to a namespace is written as the prefix that namespace is given: its fixed
one if it is well known, else the first of the prefix that introduces it and its lettered variants
that is neither fixed nor declared before. -/
theorem C03_given (attrs : List XpathAttr) (np : NameProvider) (h : newNameProvider attrs = .ok np)
    (p n t : String) (hp : ':' ∉ p.toList) (hpn : Bound attrs p n) :
    OutputPrefix np p t ↔ GivenPrefix (declarations attrs) n t := by
  obtain ⟨st, hf, hi, rfl⟩ := newNameProvider_ok h
  have hg : GInv attrs st := foldRes_inv_split GInv ginv_init
    (fun b pre x rest b' _ hb hx => ginv_step hb hx) hf
  have h1 := (hi.origin p n).2 hpn
  obtain ⟨t', h2, h3⟩ := hi.target p n h1
  have ho : OutputPrefix ⟨st.origin, st.target⟩ p t' := conceptName_of hp h1 h2
  have hgt := hg.given n t' h3
  constructor
  · intro h4
    rw [outputPrefix_unique h4 ho]; exact hgt
  · intro h4
    rw [h4.unique hgt]; exact ho

example : GivenPrefix (declarations collidingAttrs) "http://a" "link-a" :=
  (C03_given collidingAttrs _ (by decide : newNameProvider collidingAttrs =
      .ok ⟨[("link", "http://a"), ("link-a", "http://b")], [("link", "link-a"), ("link-a", "link-a")]⟩)
    "link" "http://a" "link-a" (by decide)
    ⟨[], [("link-a", "http://b")], by decide, rfl, by decide⟩).1
    (conceptName_of (by decide) (n := "http://a") (by decide) (by decide))

theorem firstFree_kept {pre : List (String × String)} {o t : String} (h1 : o ∉ wellKnown.map Prod.snd)
    (h2 : o ∉ pre.map Prod.fst) : FirstFree pre o t ↔ t = o := by
  have hf : FirstFree pre o o := ⟨[], _, rfl, ⟨h1, h2⟩, by simp⟩
  exact ⟨fun h => firstWith_unique h hf, fun h => h ▸ hf⟩

theorem lettered_free : ∀ r ∈ wellKnown.map Prod.snd, ∀ c ∈ letters,
    r ++ "-" ++ String.singleton c ∉ wellKnown.map Prod.snd := by decide

theorem lettered_plain : (∀ r ∈ wellKnown.map Prod.snd, ':' ∉ r.toList) ∧
    ∀ r ∈ wellKnown.map Prod.snd, ∀ c ∈ letters, ':' ∉ (r ++ "-" ++ String.singleton c).toList := by
  decide +kernel

theorem firstFree_renamed {pre : List (String × String)} {r t : String} (h1 : r ∈ wellKnown.map Prod.snd) :
    FirstFree pre r t ↔ ∃ c, FreeLetter pre r c ∧ t = r ++ "-" ++ String.singleton c := by
  unfold FirstFree FreeLetter
  constructor
  · rintro ⟨as, bs, he, ⟨hw, hp⟩, hn⟩
    cases as with
    | nil =>
      simp only [candidates, List.nil_append, List.cons.injEq] at he
      exact absurd (he.1 ▸ h1) hw
    | cons x as =>
      simp only [candidates, List.cons_append, List.cons.injEq] at he
      obtain ⟨l1, l2, e1, e2, e3⟩ := List.map_eq_append_iff.1 he.2
      cases l2 with
      | nil => cases e3
      | cons c l2 =>
        simp only [List.map_cons, List.cons.injEq] at e3
        refine ⟨c, ⟨l1, l2, e1, ?_, ?_⟩, e3.1.symm⟩
        · show r ++ "-" ++ String.singleton c ∉ _
          rw [e3.1]; exact hp
        · intro d hd hfree
          refine hn (r ++ "-" ++ String.singleton d) ?_ ⟨?_, hfree⟩
          · rw [← e2]; exact List.mem_cons_of_mem _ (List.mem_map.2 ⟨d, hd, rfl⟩)
          · exact lettered_free r h1 d (by rw [e1]; simp [hd])
  · rintro ⟨c, ⟨l1, l2, e1, hc, hn⟩, rfl⟩
    refine ⟨r :: l1.map (fun c => r ++ "-" ++ String.singleton c),
      l2.map (fun c => r ++ "-" ++ String.singleton c), by simp [candidates, e1],
      ⟨lettered_free r h1 c (by rw [e1]; simp), hc⟩, ?_⟩
    intro x hx hfree
    rcases List.mem_cons.1 hx with rfl | hx
    · exact hfree.1 h1
    · obtain ⟨d, hd, rfl⟩ := List.mem_map.1 hx
      exact hn d hd hfree.2

theorem wellKnown_prefix_unique {n m t : String} (h1 : (n, t) ∈ wellKnown) (h2 : (m, t) ∈ wellKnown) :
    n = m := by
  have hd : (wellKnown.map Prod.snd).Nodup := by decide
  exact congrArg Prod.fst (List.inj_on_of_nodup_map hd h1 h2 rfl)

theorem clash_of {ds pre mid post : List (String × String)} {o n o' m t : String}
    (hnd : (ds.map Prod.fst).Nodup)
    (hds : ds = pre ++ (o, n) :: (mid ++ (o', m) :: post))
    (hn : n ∉ wellKnown.map Prod.fst) (hn' : n ∉ pre.map Prod.snd)
    (hm : m ∉ wellKnown.map Prod.fst) (hm' : m ∉ (pre ++ (o, n) :: mid).map Prod.snd)
    (hf : FirstFree pre o t) (hf' : FirstFree (pre ++ (o, n) :: mid) o' t) : PrefixClash ds := by
  have hfree : t ∉ (pre ++ (o, n) :: mid).map Prod.fst := by
    obtain ⟨_, _, _, h, _⟩ := hf'; exact h.2
  have hto : t ≠ o := fun h => hfree (by simp [h])
  subst hds
  have hnd' := hnd
  simp only [List.map_append, List.map_cons, List.nodup_append, List.nodup_cons] at hnd'
  have hop : o ∉ pre.map Prod.fst := fun h => hnd'.2.2 _ h _ (by simp) rfl
  have hoo : o' ≠ o := fun h => hnd'.2.1.1 (by simp [h])
  have hop' : o' ∉ (pre ++ (o, n) :: mid).map Prod.fst := by
    intro h
    simp only [List.map_append, List.map_cons, List.mem_append, List.mem_cons] at h
    rcases h with h | h | h
    · exact hnd'.2.2 _ h _ (by simp) rfl
    · exact hoo h
    · exact hnd'.2.1.2.2.2 _ h _ (by simp) rfl
  by_cases hr : o ∈ wellKnown.map Prod.snd
  · obtain ⟨c, hc, rfl⟩ := (firstFree_renamed hr).1 hf
    by_cases hr' : o' ∈ wellKnown.map Prod.snd
    · obtain ⟨c', _, h⟩ := (firstFree_renamed hr').1 hf'
      exact absurd (gen_inj h).symm hoo
    · have := (firstFree_kept hr' hop').1 hf'
      subst this
      exact ⟨pre, mid, post, o, n, c, m, rfl, hr, hc, hn, hn', hm, hm'⟩
  · exact absurd ((firstFree_kept hr hop).1 hf) hto

theorem bound_of_nodup {attrs : List XpathAttr} (hnd : ((declarations attrs).map Prod.fst).Nodup)
    {pre post : List (String × String)} {p n : String} (h : declarations attrs = pre ++ (p, n) :: post) :
    Bound attrs p n := by
  refine ⟨pre, post, h, rfl, ?_⟩
  intro x hx he
  rw [h] at hnd
  simp only [List.map_append, List.map_cons, List.nodup_append, List.nodup_cons] at hnd
  exact hnd.2.1.1 (he ▸ List.mem_map.2 ⟨x, hx, rfl⟩)

/-- C03, exactly (2): in a document that declares each prefix once, two different namespaces are
written with the same prefix if and only if one is introduced by a fixed prefix `r` of a well-known
namespace, and so renamed to its first free lettered variant, and another is later introduced by
that very variant. -/
theorem C03_exact (attrs : List XpathAttr) (np : NameProvider) (h : newNameProvider attrs = .ok np)
    (hnd : ((declarations attrs).map Prod.fst).Nodup) :
    (∃ p q n m t, ':' ∉ p.toList ∧ ':' ∉ q.toList ∧ Bound attrs p n ∧ Bound attrs q m ∧ n ≠ m ∧
      OutputPrefix np p t ∧ OutputPrefix np q t) ↔ PrefixClash (declarations attrs) := by
  constructor
  · rintro ⟨p, q, n, m, t, hp, hq, hpn, hqm, hne, h1, h2⟩
    rw [C03_given attrs np h p n t hp hpn] at h1
    rw [C03_given attrs np h q m t hq hqm] at h2
    rcases h1 with h1 | ⟨pre, o, i1, f1⟩ <;> rcases h2 with h2 | ⟨pre', o', i2, f2⟩
    · exact absurd (wellKnown_prefix_unique h1 h2) hne
    · obtain ⟨_, _, _, hf, _⟩ := f2
      exact absurd (List.mem_map.2 ⟨_, h1, rfl⟩) hf.1
    · obtain ⟨_, _, _, hf, _⟩ := f1
      exact absurd (List.mem_map.2 ⟨_, h2, rfl⟩) hf.1
    · obtain ⟨⟨post, e1⟩, a1, b1⟩ := i1
      obtain ⟨⟨post', e2⟩, a2, b2⟩ := i2
      have he := e1.symm.trans e2
      rw [List.append_eq_append_iff] at he
      rcases he with ⟨as, h1, h2⟩ | ⟨bs, h1, h2⟩
      · cases as with
        | nil => simp at h2; exact absurd h2.1.2 hne
        | cons x as =>
          simp only [List.cons_append, List.cons.injEq] at h2
          obtain ⟨rfl, h2⟩ := h2
          subst h1
          exact clash_of (post := post') hnd (by rw [e2]; simp) a1 b1 a2 b2 f1 f2
      · cases bs with
        | nil => simp at h2; exact absurd h2.1.2.symm hne
        | cons x bs =>
          simp only [List.cons_append, List.cons.injEq] at h2
          obtain ⟨rfl, h2⟩ := h2
          subst h1
          exact clash_of (post := post) hnd (by rw [e1]; simp) a2 b2 a1 b1 f2 f1
  · rintro ⟨pre, mid, post, r, n, c, m, hds, hr, hc, hn, hn', hm, hm'⟩
    have hcl : c ∈ letters := by obtain ⟨_, _, e, _, _⟩ := hc; rw [e]; simp
    have hb1 : Bound attrs r n := bound_of_nodup hnd hds
    have hds2 : declarations attrs =
        (pre ++ (r, n) :: mid) ++ (r ++ "-" ++ String.singleton c, m) :: post := by rw [hds]; simp
    have hb2 : Bound attrs (r ++ "-" ++ String.singleton c) m := bound_of_nodup hnd hds2
    have hne : n ≠ m := fun e => hm' (by simp [e])
    refine ⟨r, _, n, m, r ++ "-" ++ String.singleton c, lettered_plain.1 r hr,
      lettered_plain.2 r hr c hcl, hb1, hb2, hne, ?_, ?_⟩
    · rw [C03_given attrs np h r n _ (lettered_plain.1 r hr) hb1]
      exact .inr ⟨pre, r, ⟨⟨_, hds⟩, hn, hn'⟩, (firstFree_renamed hr).2 ⟨c, hc, rfl⟩⟩
    · rw [C03_given attrs np h _ m _ (lettered_plain.2 r hr c hcl) hb2]
      refine .inr ⟨_, _, ⟨⟨_, hds2⟩, hm, hm'⟩, (firstFree_kept (lettered_free r hr c hcl) ?_).2 rfl⟩
      rw [hds2] at hnd
      simp only [List.map_append, List.map_cons, List.nodup_append, List.nodup_cons] at hnd ⊢
      intro hx
      exact hnd.2.2 _ (by simpa using hx) _ (by simp) rfl

example : PrefixClash (declarations collidingAttrs) :=
  ⟨[], [], [], "link", "http://a", 'a', "http://b", by decide, by decide,
    ⟨[], letters.tail, by decide, by simp, by simp⟩, by decide, by simp, by decide, by decide⟩

end Telefacts
