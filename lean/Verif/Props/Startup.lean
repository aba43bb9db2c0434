import Verif.Spec.Startup
import Verif.Props.Router
/-! # C157: what is served as a file -/
namespace Telefacts
open Telefacts.Url Telefacts.Router Telefacts.Spec

/-- A rooted path cleaned. -/
theorem clean_walk {p : Str} {e : List Str} (he : Walk [] (split p) e) : clean ('/' :: p) = absPath e := by
  have h := localFile_walk (d := []) (by simp) ((split_iff p (split p)).1 rfl) he
  rw [← h]
  unfold localFile
  rw [join, if_neg (by simp [absPath]), joinSegs_cons (by simp)]
  show _ = clean ('/' :: '/' :: p)
  rw [clean_eq, clean_eq]
  unfold stack
  simp only [rooted]
  rw [split_slash, split_slash, split_slash]
  rfl

theorem clean_rooted (p : Str) : ∃ e, (∀ s ∈ e, Name s) ∧ clean ('/' :: p) = absPath e := by
  obtain ⟨e, he⟩ := walk_exists (split p) (fun s hs => ((split_iff p (split p)).1 rfl).2.2 s hs) []
  exact ⟨e, walk_names he (by simp), clean_walk he⟩

theorem walk_down {e : List Str} (he : ∀ s ∈ e, Name s) : ∀ d, Walk d e (d ++ e) := by
  induction e with
  | nil => intro d; rw [List.append_nil]; exact .done
  | cons s r ih =>
    intro d
    refine .down (he s (by simp)) ?_
    have := ih (fun s hs => he s (by simp [hs])) (d ++ [s])
    rwa [List.append_assoc] at this

/-- The file that is opened for a name is below the root of the file server. -/
theorem dirOpen_of {g : List Str} (hg : ∀ s ∈ g, Name s) {name : Str} {e : List Str} (he : ∀ s ∈ e, Name s)
    (h : clean ('/' :: name) = absPath e) : dirOpen (absPath g) name = absPath (g ++ e) := by
  unfold dirOpen
  rw [h, absPath_eq_joinSegs e, List.tail_cons]
  by_cases hn : e = []
  · subst hn
    rw [List.append_nil]
    exact localFile_walk hg (segs := [['.']]) ((split_iff _ _).1 (by decide)) (.stay (.inr rfl) .done)
  · have hj : joinSegs e ≠ [] := by
      cases e with
      | nil => exact absurd rfl hn
      | cons a r =>
        cases r with
        | nil => exact (he a (by simp)).1
        | cons b r => rw [joinSegs_cons (by simp)]; simp
    have hs : Segs (joinSegs e) e := (split_iff _ _).1 (split_joinSegs hn (fun s hs => (he s hs).2.2.2))
    split
    · rename_i h0; exact absurd h0 hj
    · exact localFile_walk hg hs (walk_down he g)

theorem join_name {d : List Str} (hd : ∀ s ∈ d, Name s) {n : Str} (hn : Name n) : join [absPath d, n] = absPath (d ++ [n]) :=
  localFile_walk hd (segs := [n]) ((split_iff _ _).1 (by
    have := split_joinSegs (segs := [n]) (by simp) (fun s hs => by rw [List.mem_singleton.1 hs]; exact hn.2.2.2)
    exact this)) (.down hn .done)

/-- Whatever is opened is below the root of the file server. -/
theorem opened_below {g : List Str} (hg : ∀ s ∈ g, Name s) {path f : Str} (h : f ∈ opened (absPath g) path) :
    ∃ t, (∀ s ∈ t, Name s) ∧ f = absPath (g ++ t) := by
  unfold opened at h
  split at h
  · exact absurd h (by simp)
  · have : ∃ name, f = dirOpen (absPath g) name := by
      simp only [List.mem_cons, List.not_mem_nil, or_false] at h
      rcases h with h | h <;> exact ⟨_, h⟩
    obtain ⟨name, rfl⟩ := this
    obtain ⟨e, he, hc⟩ := clean_rooted name
    exact ⟨e, he, dirOpen_of hg he hc⟩

/-- And everything there is opened for some request. -/
theorem opened_every {g t : List Str} (hg : ∀ s ∈ g, Name s) (ht : ∀ s ∈ t, Name s) :
    ∃ path, rooted path = true ∧ route "POST" path = .static ∧ absPath (g ++ (t ++ [['x']])) ∈ opened (absPath g) path := by
  have hx : ∀ s ∈ t ++ [['x']], Name s := by
    intro s hs
    rcases List.mem_append.1 hs with hs | hs
    · exact ht s hs
    · rw [List.mem_singleton.1 hs]; unfold Name; decide
  have hne : t ++ [['x']] ≠ [] := by simp
  have hsp := split_joinSegs hne (fun s hs => (hx s hs).2.2.2)
  have hr : absPath (t ++ [['x']]) = '/' :: joinSegs (t ++ [['x']]) := absPath_eq_joinSegs _
  refine ⟨absPath (t ++ [['x']]), by rw [hr]; rfl, ?_, ?_⟩
  · unfold route
    rw [if_neg (by rw [cleanPath_names hne hx]; simp), if_neg (by decide)]
  · have hlast : (absPath (t ++ [['x']])).getLast? = some 'x' := by
      rw [hr]
      by_cases h0 : t = []
      · subst h0; rfl
      · rw [joinSegs_append h0 (by simp)]
        simp only [joinSegs]
        rw [show '/' :: (joinSegs t ++ '/' :: ['x']) = ('/' :: joinSegs t ++ ['/']) ++ ['x'] by simp, List.getLast?_concat]
    unfold opened
    rw [if_neg (by
      rintro ⟨pre, hp⟩
      rw [← hp] at hlast
      rw [List.getLast?_append] at hlast
      exact absurd hlast (by simp))]
    refine List.mem_cons.2 (.inl ?_)
    have h1 : staticName (absPath (t ++ [['x']])) = absPath (t ++ [['x']]) := by
      unfold staticName
      rw [hr]
      simp only [rooted, decide_true, if_true, List.tail_cons]
      rw [if_neg]
      · rw [← hr]
        conv_lhs => rw [hr]
        exact clean_walk (by rw [hsp]; exact walk_down hx [])
      · cases hc : t ++ [['x']] with
        | nil => exact absurd hc hne
        | cons a r =>
          have ha := hx a (by rw [hc]; simp)
          intro hroot
          cases a with
          | nil => exact ha.1 rfl
          | cons c cs =>
            have : c = '/' := by
              cases r with
              | nil => simpa [joinSegs, rooted] using hroot
              | cons b r => rw [joinSegs_cons (by simp)] at hroot; simpa [rooted] using hroot
            exact ha.2.2.2 (by rw [this]; simp)
    rw [h1]
    refine (dirOpen_of hg hx ?_).symm
    refine clean_walk ?_
    rw [hr, split_slash, hsp]
    exact .stay (.inl rfl) (walk_down hx [])

/-- **C157.** A directory is exposed by the file server exactly if it is below or above the directory `goldlord-midas` of the place
where the server was started. -/
theorem C157_exact {cwd e : List Str} (hc : ∀ s ∈ cwd, Name s) (he : ∀ s ∈ e, Name s) (hne : e ≠ []) :
    (∃ root, staticRoot (some (absPath cwd)) = some root ∧ Exposed root (absPath e)) ↔
      cwd ++ ["goldlord-midas".toList] <+: e ∨ e <+: cwd ++ ["goldlord-midas".toList] := by
  have hn : Name "goldlord-midas".toList := by unfold Name; decide
  have hg : ∀ s ∈ cwd ++ ["goldlord-midas".toList], Name s := by
    intro s hs
    rcases List.mem_append.1 hs with hs | hs
    · exact hc s hs
    · rw [List.mem_singleton.1 hs]; exact hn
  have hroot : staticRoot (some (absPath cwd)) = some (absPath (cwd ++ ["goldlord-midas".toList])) := by
    unfold staticRoot
    rw [Option.map_some, join_name hc hn]
  constructor
  · rintro ⟨root, h1, method, path, f, -, -, hf, hi⟩
    rw [hroot] at h1
    cases h1
    obtain ⟨t, ht, rfl⟩ := opened_below hg hf
    have hgt : ∀ s ∈ cwd ++ ["goldlord-midas".toList] ++ t, Name s := by
      intro s hs
      rcases List.mem_append.1 hs with hs | hs
      · exact hg s hs
      · exact ht s hs
    have hp := (inside_absPath hne he hgt).1 hi
    exact (List.prefix_or_prefix_of_prefix hp (List.prefix_append _ _)).symm
  · intro h
    have key : ∀ t, (∀ s ∈ t, Name s) → e <+: cwd ++ ["goldlord-midas".toList] ++ (t ++ [['x']]) →
        ∃ root, staticRoot (some (absPath cwd)) = some root ∧ Exposed root (absPath e) := by
      intro t ht hp
      obtain ⟨path, h1, h2, h3⟩ := opened_every hg ht
      refine ⟨_, hroot, "POST", path, _, h1, h2, h3, (inside_absPath hne he ?_).2 hp⟩
      intro s hs
      simp only [List.mem_append] at hs
      rcases hs with hs | hs | hs
      · exact hg s (List.mem_append.2 hs)
      · exact ht s hs
      · rw [List.mem_singleton.1 hs]; unfold Name; decide
    rcases h with ⟨t, rfl⟩ | h
    · exact key t (fun s hs => he s (List.mem_append.2 (.inr hs))) ⟨[['x']], by simp⟩
    · exact key [] (by simp) (h.trans (List.prefix_append _ _))

theorem prefix_snoc {α : Type} [DecidableEq α] {d : List α} {a b : α} (hab : a ≠ b) (t : List α) : ¬ d ++ [a] <+: d ++ b :: t := by
  rintro ⟨r, h⟩
  rw [List.append_assoc] at h
  have := List.append_cancel_left h
  simp at this
  exact hab this.1

/-- **C157.** Without the variables WD and GTS, nothing of the working directory and of the published taxonomies is served as a file. -/
theorem C157_default {cwd : List Str} (hc : ∀ s ∈ cwd, Name s) (root : Str) (hr : staticRoot (some (absPath cwd)) = some root) :
    ¬ Exposed root (directories (some (absPath cwd)) [] []).1 ∧ ¬ Exposed root (directories (some (absPath cwd)) [] []).2 := by
  have key : ∀ n, Name n → n ≠ "goldlord-midas".toList → ¬ Exposed root (join [absPath cwd, n]) := by
    intro n hn hd hx
    rw [join_name hc hn] at hx
    have := (C157_exact hc (e := cwd ++ [n]) (by
      intro s hs
      rcases List.mem_append.1 hs with hs | hs
      · exact hc s hs
      · rw [List.mem_singleton.1 hs]; exact hn) (by simp)).1 ⟨root, hr, hx⟩
    rcases this with h | h
    · exact prefix_snoc (Ne.symm hd) [] h
    · exact prefix_snoc hd [] h
  exact ⟨key _ (by unfold Name; decide) (by decide), key _ (by unfold Name; decide) (by decide)⟩

/-- **C157.** With absolute paths in WD and GTS, something is exactly if the directories are below or above `goldlord-midas`. -/
theorem C157_variables {cwd w g : List Str} (hc : ∀ s ∈ cwd, Name s) (hw : ∀ s ∈ w, Name s) (hg : ∀ s ∈ g, Name s) (root : Str)
    (hr : staticRoot (some (absPath cwd)) = some root) :
    (Exposed root (directories (some (absPath cwd)) (absPath w) (absPath g)).1 ↔
      cwd ++ ["goldlord-midas".toList] <+: w ++ ["wd".toList] ∨ w ++ ["wd".toList] <+: cwd ++ ["goldlord-midas".toList]) ∧
    (Exposed root (directories (some (absPath cwd)) (absPath w) (absPath g)).2 ↔
      cwd ++ ["goldlord-midas".toList] <+: g ++ ["gts".toList] ∨ g ++ ["gts".toList] <+: cwd ++ ["goldlord-midas".toList]) := by
  have ne : ∀ x, absPath x ≠ [] := fun x => by rw [absPath_eq_joinSegs]; simp
  have key : ∀ (x : List Str) (n : Str), (∀ s ∈ x, Name s) → Name n → (Exposed root (join [absPath x, n]) ↔
      cwd ++ ["goldlord-midas".toList] <+: x ++ [n] ∨ x ++ [n] <+: cwd ++ ["goldlord-midas".toList]) := by
    intro x n hx hn
    rw [join_name hx hn, ← C157_exact hc (e := x ++ [n]) (by
      intro s hs
      rcases List.mem_append.1 hs with hs | hs
      · exact hx s hs
      · rw [List.mem_singleton.1 hs]; exact hn) (by simp)]
    constructor
    · exact fun h => ⟨root, hr, h⟩
    · rintro ⟨root', h1, h2⟩
      rw [hr] at h1
      cases h1
      exact h2
  unfold directories
  simp only [if_neg (ne w), if_neg (ne g)]
  exact ⟨key w _ hw (by unfold Name; decide), key g _ hg (by unfold Name; decide)⟩

/-- What the server would send for `/a/../b` and for `/`. -/
example : opened "/srv/goldlord-midas".toList "/b/c.js".toList =
      ["/srv/goldlord-midas/b/c.js".toList, "/srv/goldlord-midas/b/c.js/index.html".toList] ∧
    opened "/srv/goldlord-midas".toList "/../../wd/folders".toList =
      ["/srv/goldlord-midas/wd/folders".toList, "/srv/goldlord-midas/wd/folders/index.html".toList] ∧
    opened "/srv/goldlord-midas".toList "/".toList = ["/srv/goldlord-midas".toList, "/srv/goldlord-midas/index.html".toList] ∧
    directories (some "/srv".toList) [] "/var".toList = ("/srv/wd".toList, "/var/gts".toList) ∧
    directories none [] [] = ("wd".toList, "gts".toList) ∧
    staticRoot (some "/srv".toList) = some "/srv/goldlord-midas".toList := by
  refine ⟨by decide +kernel, by decide +kernel, by decide +kernel, by decide +kernel, by decide +kernel, by decide +kernel⟩

/-- A working directory that the file server does expose. -/
example : ∃ root, staticRoot (some (absPath ["srv".toList])) = some root ∧
    Exposed root (directories (some (absPath ["srv".toList])) (absPath ["srv".toList, "goldlord-midas".toList]) (absPath ["gts".toList])).1 :=
  ⟨_, rfl, (C157_variables (cwd := ["srv".toList]) (w := ["srv".toList, "goldlord-midas".toList]) (g := ["gts".toList])
    (by intro s hs; rw [List.mem_singleton.1 hs]; unfold Name; decide)
    (by intro s hs; simp only [List.mem_cons, List.not_mem_nil, or_false] at hs; rcases hs with rfl | rfl <;> (unfold Name; decide))
    (by intro s hs; rw [List.mem_singleton.1 hs]; unfold Name; decide) _ rfl).1.2 (.inl ⟨["wd".toList], rfl⟩)⟩

end Telefacts
