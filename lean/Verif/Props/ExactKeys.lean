import Verif.Props.Cache
import Verif.Props.Relations
import Verif.Proof.FnvEndless
/-!
# Exactly when locators and cache keys are right (C62, C127)
-/
namespace Telefacts
open Telefacts.Spec Telefacts.Cache Telefacts.Linkbase Telefacts.Render Telefacts.Instance
variable {H B S : Type}

/-! ## C62 -/

/-- **C62 fails** for every fact whose name has a prefix: whenever folders can be hydrated at all, the answer to the request for the fact
`pre:name` in the context `c` is kept under the same key as that to the request for the fact `pre` in the context `name:c`. -/
theorem C62_all_fails (be : Backend H B S) (id pre name c : String) :
    Req.express id (pre ++ ":" ++ name) c ≠ .express id pre (name ++ ":" ++ c) ∧
    ((Nonempty H) → ∃ k, Uses (prog be false (.express id (pre ++ ":" ++ name) c)) k .bytes ∧
      Uses (prog be false (.express id pre (name ++ ":" ++ c))) k .bytes) := by
  refine ⟨?_, ?_⟩
  · intro h
    injection h with _ h1 _
    have := congrArg (fun s : String => s.toList.length) h1
    simp only [String.toList_append, List.length_append] at this
    have h2 : (":" : String).toList.length = 1 := by decide
    omega
  · rintro ⟨x⟩
    have hk : ∀ n c, Uses (prog be false (.express id n c)) (expressKey id n c) .bytes :=
      fun n c => .hit _ _ _ _ _ (.hyd (some x)) _ _ (.reads _ _ _ _ _)
    have e : expressKey id (pre ++ ":" ++ name) c = expressKey id pre (name ++ ":" ++ c) := by
      unfold expressKey
      simp only [String.append_assoc]
    refine ⟨_, hk _ _, ?_⟩
    rw [e]
    exact hk _ _

/-- **C62 fails** however the parts are joined: among endlessly many contexts there are two under whose key the same is kept. -/
theorem C62_endless_fails (be : Backend H B S) (id name : String) (c : Nat → String) (hH : Nonempty H) :
    ∃ m n, m ≠ n ∧ ∃ k, Uses (prog be false (.express id name (c m))) k .bytes ∧ Uses (prog be false (.express id name (c n))) k .bytes := by
  obtain ⟨x⟩ := hH
  obtain ⟨m, n, h1, h2⟩ := fnvHex_endless (fun n => id ++ "/facts/" ++ name ++ ":" ++ c n)
  have hk : ∀ n c, Uses (prog be false (.express id n c)) (expressKey id n c) .bytes :=
    fun n c => .hit _ _ _ _ _ (.hyd (some x)) _ _ (.reads _ _ _ _ _)
  have e : expressKey id name (c m) = expressKey id name (c n) := h2
  refine ⟨m, n, h1, _, hk _ _, ?_⟩
  rw [e]
  exact hk _ _

/-- Non-vacuity: a name as in `C62_fails`. -/
example : ∃ k, Uses (prog okBackend false (.express "a-1" "us-gaap:Assets" "c")) k .bytes ∧
    Uses (prog okBackend false (.express "a-1" "us-gaap" "Assets:c")) k .bytes := by
  have h := (C62_all_fails okBackend "a-1" "us-gaap" "Assets" "c").2 ⟨()⟩
  rwa [show "us-gaap" ++ ":" ++ "Assets" = "us-gaap:Assets" by decide, show "Assets" ++ ":" ++ "c" = "Assets:c" by decide] at h

/-! ## C127 -/

/-- The locators of the links of a role, with a fragment. -/
def RoleLocator (es : List LinkElem) (role : String) (l : Loc) : Prop :=
  '#' ∈ l.href.toList ∧ ∃ e ∈ es, HasRole e role ∧ ∃ x ∈ e.locs, LocOf x l

/-- **C127**, exactly: the labels of all links of a role stand for the concepts that their own links say if and only if no label stands for
two concepts in the role. -/
theorem C127_exact {A : Type} (arcOf : List Attr → A → Prop) (es : List LinkElem) (lb : Lb A) (hm : Merged arcOf es lb.links)
    (role : String) (hr : ∃ r ∈ lb.roleRefs, r.roleURI = role) :
    (∀ l, RoleLocator es role l → mapLocator role lb l.label = l.href) ↔
      ∀ l l', RoleLocator es role l → RoleLocator es role l' → l.label = l'.label → l.href = l'.href := by
  constructor
  · intro h l l' hl hl' e
    rw [← h l hl, ← h l' hl', e]
  · intro h l hl
    rw [C80_locator]
    left
    refine ⟨hr, ?_⟩
    obtain ⟨l', h'⟩ : ∃ l', FirstWith (fun l' : Loc => l'.label = l.label ∧ '#' ∈ l'.href.toList) (roleLocs role lb) l' :=
      firstWith_exists ⟨l, (merged_loc hm role l).2 hl.2, rfl, hl.1⟩
    obtain ⟨h1, h2, h3⟩ := firstWith_mem h'
    exact ⟨l', h', h l' l ⟨h3, (merged_loc hm role l').1 h1⟩ hl h2⟩

/-- Non-vacuity: in the file of `C127_fails` the label `p` stands for two concepts. -/
example : Merged (PArcOf exParse) [pairLink "x#Assets" "x#Cash", pairLink "x#Equity" "x#Stock"]
      (pairLb [pairLink "x#Assets" "x#Cash", pairLink "x#Equity" "x#Stock"]).links ∧
    RoleLocator [pairLink "x#Assets" "x#Cash", pairLink "x#Equity" "x#Stock"] "r" ⟨"x#Assets", "p"⟩ ∧
    RoleLocator [pairLink "x#Assets" "x#Cash", pairLink "x#Equity" "x#Stock"] "r" ⟨"x#Equity", "p"⟩ := by
  refine ⟨C19_presentation _ _ (fun m => List.Perm.refl m) _, ⟨by decide, _, List.mem_cons_self, ?_, _, List.mem_cons_self, ?_⟩,
    ⟨by decide, _, List.mem_cons_of_mem _ List.mem_cons_self, ?_, _, List.mem_cons_self, ?_⟩⟩
  · exact (linkRole_iff _ _).1 (by decide +kernel)
  · exact (hydrateLoc_iff _ _).1 (by decide +kernel)
  · exact (linkRole_iff _ _).1 (by decide +kernel)
  · exact (hydrateLoc_iff _ _).1 (by decide +kernel)

end Telefacts
