import Verif.Spec.Attr
/-!
# Specification of the output prefix a namespace is given
-/
namespace Telefacts.Spec

/-- The prefix `t` is the first of `o`, `o-a`, …, `o-z` that is neither the fixed prefix of a
well-known namespace nor declared in `pre`. -/
def FirstFree (pre : List (String × String)) (o t : String) : Prop :=
  FirstWith (fun c => c ∉ wellKnown.map Prod.snd ∧ c ∉ pre.map Prod.fst) (candidates o) t

/-- The declarations `ds` introduce the namespace `n`, not a well-known one, by `o` after `pre`. -/
def Introduces (ds pre : List (String × String)) (o n : String) : Prop :=
  (∃ post, ds = pre ++ (o, n) :: post) ∧ n ∉ wellKnown.map Prod.fst ∧ n ∉ pre.map Prod.snd

/-- The output prefix of the namespace `n` in a document with the declarations `ds`: the fixed one
if it is well known, else the first free one when it is introduced. -/
def GivenPrefix (ds : List (String × String)) (n t : String) : Prop :=
  (n, t) ∈ wellKnown ∨ ∃ pre o, Introduces ds pre o n ∧ FirstFree pre o t

/-- The letter `c` is the first for which the variant `r-c` is not declared in `pre`. -/
def FreeLetter (pre : List (String × String)) (r : String) (c : Char) : Prop :=
  FirstWith (fun c => r ++ "-" ++ String.singleton c ∉ pre.map Prod.fst) letters c

/-- The declarations introduce a namespace by a fixed prefix `r`, and later another one by the
variant of `r` that the first had to be renamed to. -/
def PrefixClash (ds : List (String × String)) : Prop :=
  ∃ pre mid post r n c m,
    ds = pre ++ (r, n) :: (mid ++ (r ++ "-" ++ String.singleton c, m) :: post) ∧
    r ∈ wellKnown.map Prod.snd ∧ FreeLetter pre r c ∧
    n ∉ wellKnown.map Prod.fst ∧ n ∉ pre.map Prod.snd ∧
    m ∉ wellKnown.map Prod.fst ∧ m ∉ (pre ++ (r, n) :: mid).map Prod.snd

end Telefacts.Spec
