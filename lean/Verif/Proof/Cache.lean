import Verif.Spec.Cache
import Verif.Proof.Fnv
import Verif.Proof.Path
/-! # Lemmas for the cache layer -/
namespace Telefacts.Cache
open Telefacts
variable {H B S : Type}

/-! ## Key space -/

theorem append_slash_inj {a b c d : String} (ha : '/' ∉ a.toList) (hc : '/' ∉ c.toList)
    (h : a ++ "/" ++ b = c ++ "/" ++ d) : a = c ∧ b = d := by
  have e : String.singleton '/' = "/" := by decide
  have h1 : cut '/' (a ++ "/" ++ b) = some (a, b) := cut_eq_some.2 ⟨by rw [e], ha⟩
  have h2 : cut '/' (a ++ "/" ++ b) = some (c, d) := cut_eq_some.2 ⟨by rw [e]; exact h, hc⟩
  rw [h1] at h2
  simpa using h2

theorem count_slash_one {a b : String} (ha : '/' ∉ a.toList) (hb : '/' ∉ b.toList) :
    (a ++ "/" ++ b).toList.count '/' = 1 := by
  simp [List.count_append, List.count_eq_zero_of_not_mem ha, List.count_eq_zero_of_not_mem hb]

theorem expressKey_no {id n c : String} {ch : Char} (h : ch ∉ hexDigits) :
    ch ∉ (expressKey id n c).toList := fnvHex_not_mem _ h

/-- The parts of a text can be told apart when the last one has no colon. -/
theorem append_colon_inj {a b c d : String} (hb : ':' ∉ b.toList) (hd : ':' ∉ d.toList)
    (h : a ++ ":" ++ b = c ++ ":" ++ d) : a = c ∧ b = d := by
  have h := congrArg (fun s => s.toList.reverse) h
  simp only [String.toList_append, List.reverse_append] at h
  have h : b.toList.reverse ++ ':' :: a.toList.reverse = d.toList.reverse ++ ':' :: c.toList.reverse := by simpa using h
  have key : ∀ (x y u v : List Char), ':' ∉ x → ':' ∉ y → x ++ ':' :: u = y ++ ':' :: v → x = y ∧ u = v := by
    intro x
    induction x with
    | nil =>
      intro y u v _ hy he
      cases y with
      | nil => simpa using he
      | cons z y => simp only [List.nil_append, List.cons_append, List.cons.injEq] at he; exact absurd (he.1 ▸ List.mem_cons_self) hy
    | cons z x ih =>
      intro y u v hx hy he
      cases y with
      | nil => simp only [List.nil_append, List.cons_append, List.cons.injEq] at he; exact absurd (he.1 ▸ List.mem_cons_self) hx
      | cons w y =>
        simp only [List.cons_append, List.cons.injEq] at he
        obtain ⟨r1, r2⟩ := ih y u v (fun h => hx (List.mem_cons_of_mem _ h)) (fun h => hy (List.mem_cons_of_mem _ h)) he.2
        exact ⟨by rw [he.1, r1], r2⟩
  obtain ⟨r1, r2⟩ := key _ _ _ _ (by simpa using hb) (by simpa using hd) h
  exact ⟨String.toList_injective (List.reverse_injective r2), String.toList_injective (List.reverse_injective r1)⟩

theorem factPath_inj {i n c i' n' c' : String} (h : IdOk i ∧ ':' ∉ c.toList) (h' : IdOk i' ∧ ':' ∉ c'.toList)
    (he : factPath i n c = factPath i' n' c') : i = i' ∧ n = n' ∧ c = c' := by
  obtain ⟨h1, h2⟩ := append_colon_inj h.2 h'.2 he
  have h3 : i ++ "/" ++ ("facts/" ++ n) = i' ++ "/" ++ ("facts/" ++ n') := by
    have e : ("/facts/" : String) = "/" ++ "facts/" := by decide
    rw [e] at h1
    simpa only [String.append_assoc] using h1
  obtain ⟨h4, h5⟩ := append_slash_inj h.1.2 h'.1.2 h3
  have h6 := congrArg String.toList h5
  simp only [String.toList_append, List.append_cancel_left_eq] at h6
  exact ⟨h4, String.toList_injective h6, h2⟩

theorem computes_renderable (be : Backend H B S) (id hash : String) (h : H) (x : Option (Option B × Option String)) :
    Computes be (.renderable id hash) h x ↔
      if (fileExt hash = ".xhtml" ∨ fileExt hash = ".htm") ∧ be.entryName h = hash then
        x = (be.docBytes h).map (fun d => (some d, none))
      else be.renderable hash h x := by
  show (_ ∨ _) ↔ _
  rw [← ext_xhtml, ← ext_htm]
  split
  · rename_i hd
    constructor
    · rintro (⟨_, _, h⟩ | ⟨h, _⟩)
      · exact h
      · exact absurd hd h
    · intro h; exact .inl ⟨hd.1, hd.2, h⟩
  · rename_i hd
    constructor
    · rintro (⟨h1, h2, _⟩ | ⟨_, h⟩)
      · exact absurd ⟨h1, h2⟩ hd
      · exact h
    · intro h; exact .inr ⟨hd, h⟩

/-! ## Legitimate cache entries -/

/-- What may be stored under a key when only `allowed` calls arrive. -/
inductive Legit (be : Backend H B S) (allowed : Req → Prop) : String → Val H B S → Prop
  | hyd (r id h e) : allowed r → folderOf r = some id → be.discover id none →
      be.hydrate id (some (h, e)) → Legit be allowed id (.hyd h)
  | bytes (r id h b e) : allowed r → folderOf r = some id → be.discover id none →
      be.hydrate id (some (some h, none)) → Computes be r h (some (b, e)) →
      Legit be allowed (resultKey r) (.bytes b)
  | schema (url s) : allowed (.schema url) → be.schema url (some s) → Legit be allowed url (.schema s)
  | utr (s) : be.utr (some s) → Legit be allowed UTR (.utr s)
  | names (s) : be.names (some s) → Legit be allowed "names.json" (.names s)

theorem folder_idOk {allowed : Req → Prop} (hn : Normal allowed) {r : Req} {id : String}
    (hr : allowed r) (hf : folderOf r = some id) : IdOk id := by
  have := hn.ok r hr
  cases r <;> simp_all [folderOf, ReqOk]

/-- A key of a stored answer of a folder call: never an id, a URL or `names.json`. -/
theorem resultKey_not_id {r : Req} {id id' : String}
    (hf : folderOf r = some id) (hid : IdOk id') : resultKey r ≠ id' := by
  intro h
  cases r with
  | catalog i => subst h; exact hid.2 (by simp [resultKey])
  | renderable i ha => subst h; exact hid.2 (by simp [resultKey])
  | express i n c => subst h; exact expressKey_no (by decide) hid.1
  | schema u => simp [folderOf] at hf
  | utr => simp [folderOf] at hf
  | names => simp [folderOf] at hf

theorem resultKey_count {allowed : Req → Prop} (hn : Normal allowed) {r : Req} {id : String}
    (hr : allowed r) (hf : folderOf r = some id) : (resultKey r).toList.count '/' ≤ 1 := by
  have := hn.ok r hr
  cases r with
  | catalog i =>
    have h := count_slash_one (a := i) (b := "") this.2 (by decide)
    rw [String.append_empty] at h
    simp only [resultKey]; omega
  | renderable i ha =>
    have h := count_slash_one this.1.2 this.2.2
    simp only [resultKey]; omega
  | express i n c =>
    have : '/' ∉ (resultKey (.express i n c)).toList := expressKey_no (by decide)
    rw [List.count_eq_zero_of_not_mem this]; omega
  | schema u => simp [folderOf] at hf
  | utr => simp [folderOf] at hf
  | names => simp [folderOf] at hf

theorem resultKey_ne_names {r : Req} {id : String}
    (hf : folderOf r = some id) : resultKey r ≠ "names.json" := by
  intro h
  cases r with
  | catalog i =>
    have : '/' ∈ (resultKey (.catalog i)).toList := by simp [resultKey]
    rw [h] at this; revert this; decide
  | renderable i ha =>
    have : '/' ∈ (resultKey (.renderable i ha)).toList := by simp [resultKey]
    rw [h] at this; revert this; decide
  | express i n c =>
    have : '.' ∉ (resultKey (.express i n c)).toList := expressKey_no (by decide)
    rw [h] at this; revert this; decide
  | schema u => simp [folderOf] at hf
  | utr => simp [folderOf] at hf
  | names => simp [folderOf] at hf

theorem resultKey_inj {allowed : Req → Prop} (hn : Normal allowed) {r r' : Req} {id id' : String}
    (hr : allowed r) (hr' : allowed r') (hf : folderOf r = some id) (hf' : folderOf r' = some id')
    (h : resultKey r = resultKey r') : r = r' := by
  have h1 := hn.ok r hr
  have h2 := hn.ok r' hr'
  have cat : ∀ {i j ha : String}, '/' ∉ i.toList → '/' ∉ j.toList → ha ≠ "" →
      i ++ "/" ≠ j ++ "/" ++ ha := by
    intro i j ha hi hj hne he
    have he' : i ++ "/" ++ "" = j ++ "/" ++ ha := by rw [String.append_empty]; exact he
    exact hne (append_slash_inj hi hj he').2.symm
  have exs : ∀ {i n c : String} {s : String}, fnvHex (factPath i n c) = s → '/' ∉ s.toList := by
    intro i n c s he; rw [← he]; exact expressKey_no (by decide)
  cases r <;> cases r' <;> first | (simp [folderOf] at hf; done) | (simp [folderOf] at hf'; done) | skip
  · rename_i i j
    have he : i ++ "/" ++ "" = j ++ "/" ++ "" := by simpa [resultKey] using h
    rw [(append_slash_inj h1.2 h2.2 he).1]
  · rename_i i j ha; exact absurd h (cat h1.2 h2.1.2 h2.2.1)
  · rename_i i j n c
    exact absurd (show '/' ∈ (i ++ "/").toList by simp) (exs h.symm)
  · rename_i i ha j; exact absurd h.symm (cat h2.2 h1.1.2 h1.2.1)
  · rename_i i ha j hb
    obtain ⟨rfl, rfl⟩ := append_slash_inj h1.1.2 h2.1.2 h
    rfl
  · rename_i i ha j n c
    exact absurd (show '/' ∈ (i ++ "/" ++ ha).toList by simp) (exs h.symm)
  · rename_i j n c i
    exact absurd (show '/' ∈ (i ++ "/").toList by simp) (exs h)
  · rename_i j n c i ha
    exact absurd (show '/' ∈ (i ++ "/" ++ ha).toList by simp) (exs h)
  · rename_i i n c j m d
    obtain ⟨rfl, rfl, rfl⟩ := factPath_inj h1 h2 (hn.express _ _ _ _ _ _ hr hr' h)
    rfl

theorem legit_id {be : Backend H B S} {allowed : Req → Prop} (hn : Normal allowed) {id : String}
    (hid : IdOk id) {v : Val H B S} (h : Legit be allowed id v) :
    ∃ h e, v = .hyd h ∧ be.discover id none ∧ be.hydrate id (some (h, e)) := by
  generalize hk : id = key at h
  cases h with
  | hyd r i h e h1 h2 h3 h4 => subst hk; exact ⟨h, e, rfl, h3, h4⟩
  | bytes r i h b e h1 h2 h3 h4 h5 => exact absurd hk.symm (resultKey_not_id h2 hid)
  | schema url s h1 h2 =>
    subst hk
    have := (hn.ok _ h1).1
    rw [List.count_eq_zero_of_not_mem hid.2] at this
    omega
  | utr s h1 => subst hk; exact absurd hid.2 (by decide)
  | names s h1 => subst hk; exact absurd hid.1 (by decide)

theorem legit_result {be : Backend H B S} {allowed : Req → Prop} (hn : Normal allowed) {r : Req}
    {id : String} (hr : allowed r) (hf : folderOf r = some id) {v : Val H B S}
    (h : Legit be allowed (resultKey r) v) :
    ∃ h b e, v = .bytes b ∧ be.discover id none ∧ be.hydrate id (some (some h, none)) ∧
      Computes be r h (some (b, e)) := by
  generalize hk : resultKey r = key at h
  cases h with
  | hyd r' i h e h1 h2 h3 h4 => exact absurd hk (resultKey_not_id hf (folder_idOk hn h1 h2))
  | bytes r' i h b e h1 h2 h3 h4 h5 =>
    have := resultKey_inj hn hr h1 hf h2 hk
    subst this
    rw [hf] at h2
    cases h2
    exact ⟨h, b, e, rfl, h3, h4, h5⟩
  | schema url s h1 h2 =>
    have h3 := (hn.ok _ h1).1
    have h4 := resultKey_count hn hr hf
    rw [hk] at h4
    omega
  | utr s h1 =>
    have h4 := resultKey_count hn hr hf
    rw [hk] at h4
    exact absurd h4 (by decide)
  | names s h1 => exact absurd hk (resultKey_ne_names hf)

theorem legit_schema {be : Backend H B S} {allowed : Req → Prop} (hn : Normal allowed) {url : String}
    (hr : allowed (.schema url)) {v : Val H B S} (h : Legit be allowed url v) :
    ∃ s, v = .schema s ∧ be.schema url (some s) := by
  have hu := hn.ok _ hr
  generalize hk : url = key at h
  cases h with
  | hyd r i h e h1 h2 h3 h4 =>
    have := (folder_idOk hn h1 h2).2
    have h5 := hu.1
    rw [hk, List.count_eq_zero_of_not_mem this] at h5
    omega
  | bytes r i h b e h1 h2 h3 h4 h5 =>
    have h6 := resultKey_count hn h1 h2
    have h7 := hu.1
    rw [← hk] at h6
    omega
  | schema url' s h1 h2 => subst hk; exact ⟨s, rfl, h2⟩
  | utr s h1 => exact absurd hk hu.2
  | names s h1 =>
    have h7 := hu.1
    rw [hk] at h7
    exact absurd h7 (by decide)

theorem legit_utr {be : Backend H B S} {allowed : Req → Prop} (hn : Normal allowed)
    {v : Val H B S} (h : Legit be allowed UTR v) : ∃ s, v = .utr s ∧ be.utr (some s) := by
  generalize hk : UTR = key at h
  cases h with
  | hyd r i h e h1 h2 h3 h4 =>
    have := (folder_idOk hn h1 h2).2
    rw [← hk] at this
    exact absurd this (by decide)
  | bytes r i h b e h1 h2 h3 h4 h5 =>
    have h6 := resultKey_count hn h1 h2
    rw [← hk] at h6
    exact absurd h6 (by decide)
  | schema url' s h1 h2 => exact absurd hk.symm (hn.ok _ h1).2
  | utr s h1 => exact ⟨s, rfl, h1⟩
  | names s h1 => exact absurd hk (by decide)

theorem legit_names {be : Backend H B S} {allowed : Req → Prop} (hn : Normal allowed)
    {v : Val H B S} (h : Legit be allowed "names.json" v) : ∃ s, v = .names s ∧ be.names (some s) := by
  generalize hk : "names.json" = key at h
  cases h with
  | hyd r i h e h1 h2 h3 h4 =>
    have := (folder_idOk hn h1 h2).1
    rw [← hk] at this
    exact absurd this (by decide)
  | bytes r i h b e h1 h2 h3 h4 h5 =>
    exact absurd hk.symm (resultKey_ne_names h2)
  | schema url' s h1 h2 =>
    have h7 := (hn.ok _ h1).1
    rw [← hk] at h7
    exact absurd h7 (by decide)
  | utr s h1 => exact absurd hk.symm (by decide)
  | names s h1 => exact ⟨s, rfl, h1⟩

/-! ## Outcomes -/

/-- An answer is direct, or a stale replay of a failed computation: the bytes that accompanied an
error without the error, or a panic after a failed hydration. -/
def Allowed (be : Backend H B S) (r : Req) (o : Out H B S) : Prop :=
  Direct be r o ∨
  (folderOf r ≠ none ∧ ∃ b e, o = .ret (.bytes b) none ∧ Direct be r (.ret (.bytes b) (some e))) ∨
  (folderOf r ≠ none ∧ o = .panic ∧ ∃ e, Direct be r (.ret (.bytes none) (some e)))

/-- A program whose every run from legitimate cache contents ends in an acceptable outcome, writes
only legitimate entries and never fails a type assertion. -/
def Safe (be : Backend H B S) (allowed : Req → Prop) (ok : Out H B S → Prop) : Prog H B S → Prop
  | .done o => ok o
  | .get _ key kind hit miss =>
    (∀ v, Legit be allowed key v → v.kind = kind ∧ Safe be allowed ok (hit v)) ∧ Safe be allowed ok miss
  | .spawn _ key v next => Legit be allowed key v ∧ Safe be allowed ok next
  | .chooseErr p k => ∀ x, p x → Safe be allowed ok (k x)
  | .chooseHyd p k => ∀ x, p x → Safe be allowed ok (k x)
  | .chooseBytes p k => ∀ x, p x → Safe be allowed ok (k x)
  | .chooseGlobal p k => ∀ x, p x → Safe be allowed ok (k x)

/-- The continuation of `hydratable` only needs to handle what the backend can produce. -/
theorem safe_hydratable {be : Backend H B S} {allowed : Req → Prop} (hn : Normal allowed)
    (ok : Out H B S → Prop) (dry : Bool) {r : Req} {id : String} (hr : allowed r)
    (hf : folderOf r = some id) (k : Option H → Option String → Prog H B S)
    (hdisc : ∀ m, be.discover id (some m) →
      Safe be allowed ok (k none (some ("failed to discover folder, " ++ m))))
    (hpan : be.discover id none → be.hydrate id none → ok .panic)
    (hhyd : ∀ h e, be.discover id none → be.hydrate id (some (h, e)) → Safe be allowed ok (k h e))
    (hhit : ∀ h e, be.discover id none → be.hydrate id (some (h, e)) → Safe be allowed ok (k h none)) :
    Safe be allowed ok (hydratable be dry id k) := by
  have hid := folder_idOk hn hr hf
  have fresh : ∀ d : Bool, Safe be allowed ok (Prog.chooseErr (be.discover id) (fun
      | some m => k none (some ("failed to discover folder, " ++ m))
      | none => .chooseHyd (be.hydrate id) fun
        | none => .done .panic
        | some (ret, err) =>
          if d then k ret err else .spawn .app id (.hyd ret) (k ret err))) := by
    intro d x hx
    cases x with
    | some m => exact hdisc m hx
    | none =>
      intro y hy
      cases y with
      | none => exact hpan hx hy
      | some p =>
        obtain ⟨h, e⟩ := p
        cases d with
        | true => exact hhyd h e hx hy
        | false => exact ⟨.hyd r id h e hr hf hx hy, hhyd h e hx hy⟩
  unfold hydratable
  cases dry with
  | true => exact fresh true
  | false =>
    refine ⟨?_, fresh false⟩
    intro v hv
    obtain ⟨h, e, rfl, h1, h2⟩ := legit_id hn hid hv
    exact ⟨rfl, hhit h e h1 h2⟩

theorem safe_finish {be : Backend H B S} {allowed : Req → Prop} (ok : Out H B S → Prop) (dry : Bool)
    {r : Req} {id : String} {h : H} (hr : allowed r)
    (hf : folderOf r = some id) (h1 : be.discover id none) (h2 : be.hydrate id (some (some h, none)))
    (x : Option (Option B × Option String)) (hx : Computes be r h x)
    (hok : ∀ o, Direct be r o → ok o) : Safe be allowed ok (finish dry (resultKey r) x) := by
  cases x with
  | none => exact hok _ (.computePanic r id h hf h1 h2 hx)
  | some p =>
    obtain ⟨b, e⟩ := p
    have hd := hok _ (.computed r id h b e hf h1 h2 hx)
    unfold finish
    cases dry with
    | true => exact hd
    | false => exact ⟨.bytes r id h b e hr hf h1 h2 hx, hd⟩

theorem safe_orFail {be : Backend H B S} {allowed : Req → Prop} {ok : Out H B S → Prop}
    {err : Option String} {next : Prog H B S}
    (h1 : ∀ m, err = some m → ok (.ret (.bytes none) (some m)))
    (h2 : err = none → Safe be allowed ok next) : Safe be allowed ok (orFail err next) := by
  cases err with
  | none => exact h2 rfl
  | some m => exact h1 m rfl

theorem safe_cachedBytes {be : Backend H B S} {allowed : Req → Prop} (hn : Normal allowed) {r : Req}
    {id : String} (hr : allowed r) (hf : folderOf r = some id) (dry : Bool) {fresh : Prog H B S}
    (h : Safe be allowed (Allowed be r) fresh) :
    Safe be allowed (Allowed be r) (cachedBytes dry (resultKey r) fresh) := by
  unfold cachedBytes
  cases dry with
  | true => exact h
  | false =>
    refine ⟨?_, h⟩
    intro v hv
    obtain ⟨h, b, e, rfl, h1, h2, h3⟩ := legit_result hn hr hf hv
    refine ⟨rfl, ?_⟩
    have hd := Direct.computed r id h b e hf h1 h2 h3
    cases e with
    | none => exact .inl hd
    | some e => exact .inr (.inl ⟨by simp [hf], b, e, rfl, hd⟩)

theorem safe_withHyd {be : Backend H B S} {allowed : Req → Prop} (hs : be.Sane) {r : Req}
    {id : String} (hf : folderOf r = some id) {h : Option H} {e0 : Option String}
    (h1 : be.discover id none) (h2 : be.hydrate id (some (h, e0))) {k : H → Prog H B S}
    (hk : ∀ h', be.hydrate id (some (some h', none)) → Safe be allowed (Allowed be r) (k h')) :
    Safe be allowed (Allowed be r) (withHyd h k) := by
  cases h with
  | none =>
    have := (hs id none e0 h2).1 rfl
    cases e0 with
    | none => exact absurd rfl this
    | some m => exact .inr (.inr ⟨by simp [hf], rfl, m, .unhydrated r id none m hf h1 h2⟩)
  | some h =>
    have : e0 = none := by
      cases e0 with
      | none => rfl
      | some m => exact absurd ((hs id (some h) (some m) h2).2 (by simp)) (by simp)
    subst this
    exact hk h h2

/-- `hydratable` followed by the error check. -/
theorem safe_hydrated {be : Backend H B S} {allowed : Req → Prop} (hn : Normal allowed)
    (dry : Bool) {r : Req} {id : String} (hr : allowed r)
    (hf : folderOf r = some id) (k : Option H → Prog H B S)
    (hk : ∀ h e, be.discover id none → be.hydrate id (some (h, e)) →
      Safe be allowed (Allowed be r) (k h)) :
    Safe be allowed (Allowed be r) (hydratable be dry id fun h err => orFail err (k h)) := by
  refine safe_hydratable hn _ dry hr hf _ ?_ ?_ ?_ ?_
  · intro m hm; exact .inl (.undiscovered _ id m hf hm)
  · intro h1 h2; exact .inl (.hydratePanic _ id hf h1 h2)
  · intro h e h1 h2
    refine safe_orFail ?_ ?_
    · rintro m rfl; exact .inl (.unhydrated _ id h m hf h1 h2)
    · intro _; exact hk h e h1 h2
  · intro h e h1 h2; exact hk h e h1 h2

theorem safe_prog {be : Backend H B S} {allowed : Req → Prop} (hn : Normal allowed) (hs : be.Sane)
    (dry : Bool) {r : Req} (hr : allowed r) : Safe be allowed (Allowed be r) (prog be dry r) := by
  have hdir : ∀ o, Direct be r o → Allowed be r o := fun o h => .inl h
  cases r with
  | catalog id =>
    refine safe_hydrated hn dry (r := .catalog id) hr rfl _ ?_
    intro h e h1 h2
    refine safe_cachedBytes hn (r := .catalog id) hr rfl dry ?_
    refine safe_withHyd hs (r := .catalog id) rfl h1 h2 ?_
    intro h' h3 x hx
    exact safe_finish (r := .catalog id) _ dry hr rfl h1 h3 x hx hdir
  | express id n c =>
    refine safe_hydrated hn dry (r := .express id n c) hr rfl _ ?_
    intro h e h1 h2
    refine safe_cachedBytes hn (r := .express id n c) hr rfl dry ?_
    refine safe_withHyd hs (r := .express id n c) rfl h1 h2 ?_
    intro h' h3 x hx
    exact safe_finish (r := .express id n c) _ dry hr rfl h1 h3 x hx hdir
  | renderable id hash =>
    refine safe_cachedBytes hn (r := .renderable id hash) hr rfl dry ?_
    refine safe_hydrated hn dry (r := .renderable id hash) hr rfl _ ?_
    intro h e h1 h2
    refine safe_withHyd hs (r := .renderable id hash) rfl h1 h2 ?_
    intro h' h3
    have hc := fun x => computes_renderable be id hash h' x
    unfold renderableFresh
    by_cases hd : (fileExt hash = ".xhtml" ∨ fileExt hash = ".htm") ∧ be.entryName h' = hash
    · rw [if_pos hd]
      simp only [if_pos hd] at hc
      cases hb : be.docBytes h' with
      | none =>
        exact hdir _ (.computePanic _ id h' rfl h1 h3 ((hc none).2 (by simp [hb])))
      | some d =>
        exact safe_finish (r := .renderable id hash) _ dry hr rfl h1 h3 _
          ((hc _).2 (by simp [hb])) hdir
    · rw [if_neg hd]
      simp only [if_neg hd] at hc
      intro x hx
      exact safe_finish (r := .renderable id hash) _ dry hr rfl h1 h3 x ((hc x).2 hx) hdir
  | schema url =>
    refine ⟨?_, ?_⟩
    · intro v hv
      obtain ⟨s, rfl, h⟩ := legit_schema hn hr hv
      exact ⟨rfl, hdir _ (.schema url s h)⟩
    · intro x hx
      cases x with
      | none => exact hdir _ (.schemaErr url hx)
      | some s => exact ⟨.schema url s hr hx, hdir _ (.schema url s hx)⟩
  | utr =>
    refine ⟨?_, ?_⟩
    · intro v hv
      obtain ⟨s, rfl, h⟩ := legit_utr hn hv
      exact ⟨rfl, hdir _ (.utr s h)⟩
    · intro x hx
      cases x with
      | none => exact hdir _ (.utrErr hx)
      | some s => exact ⟨.utr s hx, hdir _ (.utr s hx)⟩
  | names =>
    refine ⟨?_, ?_⟩
    · intro v hv
      obtain ⟨s, rfl, h⟩ := legit_names hn hv
      exact ⟨rfl, hdir _ (.names s h)⟩
    · intro x hx
      cases x with
      | none => exact hdir _ (.namesErr hx)
      | some s => exact ⟨.names s hx, hdir _ (.names s hx)⟩

/-- Without caching every answer to a folder call is direct. -/
theorem safe_dry {be : Backend H B S} {allowed : Req → Prop} (hs : be.Sane) {r : Req} {id : String}
    (hr : allowed r) (hf : folderOf r = some id) :
    Safe be allowed (Direct be r) (prog be true r) := by
  have hyd : ∀ k : Option H → Prog H B S,
      (∀ h, be.discover id none → be.hydrate id (some (some h, none)) →
        Safe be allowed (Direct be r) (k (some h))) →
      Safe be allowed (Direct be r) (hydratable be true id fun h err => orFail err (k h)) := by
    intro k hk x hx
    cases x with
    | some m => exact .undiscovered r id m hf hx
    | none =>
      intro y hy
      cases y with
      | none => exact .hydratePanic r id hf hx hy
      | some p =>
        obtain ⟨h, e⟩ := p
        cases e with
        | some m => exact .unhydrated r id h m hf hx hy
        | none =>
          cases h with
          | none => exact absurd rfl ((hs id none none hy).1 rfl)
          | some h => exact hk h hx hy
  cases r with
  | catalog i =>
    cases hf
    refine hyd _ ?_
    intro h h1 h2 x hx
    exact safe_finish (r := .catalog id) _ true hr rfl h1 h2 x hx (fun _ h => h)
  | express i n c =>
    cases hf
    refine hyd _ ?_
    intro h h1 h2 x hx
    exact safe_finish (r := .express id n c) _ true hr rfl h1 h2 x hx (fun _ h => h)
  | renderable i hash =>
    cases hf
    refine hyd _ ?_
    intro h' h1 h3
    have hc := fun x => computes_renderable be id hash h' x
    show Safe be allowed _ (renderableFresh be true id hash h')
    unfold renderableFresh
    by_cases hd : (fileExt hash = ".xhtml" ∨ fileExt hash = ".htm") ∧ be.entryName h' = hash
    · rw [if_pos hd]
      simp only [if_pos hd] at hc
      cases hb : be.docBytes h' with
      | none => exact .computePanic _ id h' rfl h1 h3 ((hc none).2 (by simp [hb]))
      | some d =>
        exact safe_finish (r := .renderable id hash) _ true hr rfl h1 h3 _
          ((hc _).2 (by simp [hb])) (fun _ h => h)
    · rw [if_neg hd]
      simp only [if_neg hd] at hc
      intro x hx
      exact safe_finish (r := .renderable id hash) _ true hr rfl h1 h3 x ((hc x).2 hx) (fun _ h => h)
  | schema u => cases hf
  | utr => cases hf
  | names => cases hf

theorem safe_mono {be : Backend H B S} {allowed : Req → Prop} {ok ok' : Out H B S → Prop}
    (h : ∀ o, ok o → ok' o) (p : Prog H B S) : Safe be allowed ok p → Safe be allowed ok' p := by
  induction p with
  | done o => exact h o
  | get l key kind hit miss ih1 ih2 =>
    intro hp
    exact ⟨fun v hv => ⟨(hp.1 v hv).1, ih1 v (hp.1 v hv).2⟩, ih2 hp.2⟩
  | spawn l key v next ih => intro hp; exact ⟨hp.1, ih hp.2⟩
  | chooseErr p k ih => intro hp x hx; exact ih x (hp x hx)
  | chooseHyd p k ih => intro hp x hx; exact ih x (hp x hx)
  | chooseBytes p k ih => intro hp x hx; exact ih x (hp x hx)
  | chooseGlobal p k ih => intro hp x hx; exact ih x (hp x hx)

/-! ## Invariant of the process -/

/-- Invariant in normal operation. -/
structure Inv (be : Backend H B S) (allowed : Req → Prop) (ok : Req → Out H B S → Prop) (s : State H B S) : Prop where
  cache : ∀ k v, s.cache k = some v → Legit be allowed k v
  pending : ∀ l k v, (l, k, v) ∈ s.pending → Legit be allowed k v
  threads : ∀ r p, (r, p) ∈ s.threads → allowed r ∧ Safe be allowed (ok r) p
  log : ∀ r o, (r, o) ∈ s.log → ok r o
  leaked : ∀ l, s.leaked l = 0
  waiting : ∀ l, s.waiting l = false

theorem inv_init (be : Backend H B S) (allowed : Req → Prop) (ok : Req → Out H B S → Prop) : Inv be allowed ok State.init where
  cache := by simp [State.init]
  pending := by simp [State.init]
  threads := by simp [State.init]
  log := by simp [State.init]
  leaked := by simp [State.init]
  waiting := by simp [State.init]

theorem threads_replace {P : Req × Prog H B S → Prop} {pre post : List (Req × Prog H B S)}
    {x y : Req × Prog H B S} {l : List (Req × Prog H B S)} (he : l = pre ++ x :: post)
    (h : ∀ z ∈ l, P z) (hy : P x → P y) : ∀ z ∈ pre ++ y :: post, P z := by
  subst he
  intro z hz
  simp only [List.mem_append, List.mem_cons] at hz h
  rcases hz with hz | rfl | hz
  · exact h z (.inl hz)
  · exact hy (h x (.inr (.inl rfl)))
  · exact h z (.inr (.inr hz))

theorem inv_step {be : Backend H B S} {allowed : Req → Prop} {ok : Req → Out H B S → Prop}
    {dry : Bool} (hsafe : ∀ r, allowed r → Safe be allowed (ok r) (prog be dry r)) {s t : State H B S} (hi : Inv be allowed ok s) (h : Step be dry allowed s t) :
    Inv be allowed ok t := by
  have hth : ∀ z ∈ s.threads, allowed z.1 ∧ Safe be allowed (ok z.1) z.2 :=
    fun z hz => hi.threads z.1 z.2 hz
  cases h with
  | start r hr =>
    refine { hi with threads := ?_ }
    intro r' p hp
    rcases List.mem_cons.1 hp with h | h
    · cases h; exact ⟨hr, hsafe r hr⟩
    · exact hi.threads _ _ h
  | done pre post r o he =>
    refine { hi with threads := ?_, log := ?_ }
    · intro r' p hp
      refine hi.threads r' p ?_
      rw [he]; simp at hp ⊢; rcases hp with h | h <;> simp [h]
    · intro r' o' h
      rcases List.mem_cons.1 h with h | h
      · cases h
        exact (hi.threads r (.done o) (by rw [he]; simp)).2
      · exact hi.log _ _ h
  | hit pre post r l key kind hit miss v he hw hc hk =>
    refine { hi with threads := ?_ }
    intro r' p hp
    exact threads_replace (P := fun z => allowed z.1 ∧ Safe be allowed (ok z.1) z.2) (y := (r, hit v)) he hth
      (fun hx => ⟨hx.1, (hx.2.1 v (hi.cache _ _ hc)).2⟩) _ hp
  | clash pre post r l key kind hit miss v he hw hc hk =>
    have := (hth _ (by rw [he]; simp : (r, Prog.get l key kind hit miss) ∈ s.threads)).2.1 v (hi.cache _ _ hc)
    exact absurd this.1 hk
  | miss pre post r l key kind hit miss he hw hc =>
    refine { hi with threads := ?_ }
    intro r' p hp
    exact threads_replace (P := fun z => allowed z.1 ∧ Safe be allowed (ok z.1) z.2) (y := (r, miss)) he hth
      (fun hx => ⟨hx.1, hx.2.2⟩) _ hp
  | spawn pre post r l key v next he =>
    have hthis := hth _ (by rw [he]; simp : (r, Prog.spawn l key v next) ∈ s.threads)
    refine { hi with threads := ?_, pending := ?_ }
    rotate_left
    · intro r' p hp
      exact threads_replace (P := fun z => allowed z.1 ∧ Safe be allowed (ok z.1) z.2) (y := (r, next)) he hth
        (fun hx => ⟨hx.1, hx.2.2⟩) _ hp
    · intro l' k' v' hp
      rcases List.mem_cons.1 hp with h | h
      · cases h; exact hthis.2.1
      · exact hi.pending _ _ _ h
  | chooseErr pre post r possible k x he hx =>
    refine { hi with threads := ?_ }
    intro r' p hp
    exact threads_replace (P := fun z => allowed z.1 ∧ Safe be allowed (ok z.1) z.2) (y := (r, k x)) he hth
      (fun hz => ⟨hz.1, hz.2 x hx⟩) _ hp
  | chooseHyd pre post r possible k x he hx =>
    refine { hi with threads := ?_ }
    intro r' p hp
    exact threads_replace (P := fun z => allowed z.1 ∧ Safe be allowed (ok z.1) z.2) (y := (r, k x)) he hth
      (fun hz => ⟨hz.1, hz.2 x hx⟩) _ hp
  | chooseBytes pre post r possible k x he hx =>
    refine { hi with threads := ?_ }
    intro r' p hp
    exact threads_replace (P := fun z => allowed z.1 ∧ Safe be allowed (ok z.1) z.2) (y := (r, k x)) he hth
      (fun hz => ⟨hz.1, hz.2 x hx⟩) _ hp
  | chooseGlobal pre post r possible k x he hx =>
    refine { hi with threads := ?_ }
    intro r' p hp
    exact threads_replace (P := fun z => allowed z.1 ∧ Safe be allowed (ok z.1) z.2) (y := (r, k x)) he hth
      (fun hz => ⟨hz.1, hz.2 x hx⟩) _ hp
  | commit pre post l key v he hl =>
    refine { hi with cache := ?_, pending := ?_ }
    · intro k' v' hc
      simp only [upd] at hc
      split at hc
      · rename_i h; subst h; cases hc
        exact hi.pending l k' v (by rw [he]; simp)
      · exact hi.cache _ _ hc
    · intro l' k' v' hp
      refine hi.pending l' k' v' ?_
      rw [he]; simp at hp ⊢; rcases hp with h | h <;> simp [h]
  | block pre post l key v he hl =>
    exact absurd (hi.leaked l) (by omega)

theorem inv_steps {be : Backend H B S} {allowed : Req → Prop} {ok : Req → Out H B S → Prop}
    {dry : Bool} (hsafe : ∀ r, allowed r → Safe be allowed (ok r) (prog be dry r)) {s t : State H B S} (hi : Inv be allowed ok s) (h : Steps be dry allowed s t) :
    Inv be allowed ok t := by
  induction h with
  | refl => exact hi
  | tail _ hstep ih => exact inv_step hsafe ih hstep

theorem steps_trans {be : Backend H B S} {allowed : Req → Prop} {dry : Bool} {s t u : State H B S}
    (h1 : Steps be dry allowed s t) (h2 : Steps be dry allowed t u) : Steps be dry allowed s u := by
  induction h2 with
  | refl => exact h1
  | tail _ hstep ih => exact .tail ih hstep

theorem inv_reach {be : Backend H B S} {allowed : Req → Prop} (hn : Normal allowed) (hs : be.Sane)
    {dry : Bool} {s : State H B S} (h : Steps be dry allowed State.init s) :
    Inv be allowed (Allowed be) s :=
  inv_steps (fun _ hr => safe_prog hn hs dry hr) (inv_init be allowed _) h

end Telefacts.Cache
