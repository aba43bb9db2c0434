import Verif.Proof.XmlLoad
import Verif.Props.GridJson
/-! # C119 to C123: the texts of XML files -/
namespace Telefacts
open Telefacts.XmlText Telefacts.Hydrate Telefacts.Decode Telefacts.Instance Telefacts.Linkbase Telefacts.Schema Telefacts.Spec Telefacts.Render

/-- Names of ASCII characters, encodings as the decoder of files knows them (`latin1` for one). -/
def fileEnv : XmlText.Env := ⟨fun _ => false, fun _ => false, declAccepted fun c => decide (c = "latin1".toList)⟩
/-- The same for the decoder of typed members, which has no `CharsetReader`. -/
def memberEnv : XmlText.Env := { fileEnv with declOk := declAccepted fun _ => false }

/-- **C119.** A file is read iff its text is an XML document, and what is read is its root element: the names with the
namespaces that are declared for their prefixes, the attributes in order with their values, the text and the elements inside, in
order. -/
theorem C119_tree (e : XmlText.Env) (s : Str) (x : Xml) : parse e s = some x ↔ IsDocument e s x := parse_iff e s x

/-- A text is at most one document. -/
theorem C119_unique (e : XmlText.Env) (s : Str) (x y : Xml) (hx : IsDocument e s x) (hy : IsDocument e s y) : x = y := by
  rw [← parse_iff] at hx hy
  rw [hx] at hy
  simpa using hy

/-- Every element is read with its source text, its text and its elements. -/
theorem C119_inside (e : XmlText.Env) (s : Str) (x y : Xml) (h : parse e s = some x) (hy : Within x y) :
    ∃ sc cs, Content e sc y.inner.toList cs y.kids ∧ y.chars = String.ofList cs := good_within ((parse_iff e s x).1 h) hy

example : (parse fileEnv "<?xml version=\"1.0\" encoding='latin1'?>\n<!-- c --><a xmlns=\"u\" xmlns:p='v' p:b=\"1 &lt; 2\"><p:c/>x&#65;<![CDATA[<&]]></a >".toList).map
      (fun x => (x.name, x.attrs, x.chars, x.inner, x.kids.map Xml.name)) =
    some (⟨"u", "a"⟩, [⟨⟨"", "xmlns"⟩, "u"⟩, ⟨⟨"xmlns", "p"⟩, "v"⟩, ⟨⟨"v", "b"⟩, "1 < 2"⟩], "xA<&", "<p:c/>x&#65;<![CDATA[<&]]>",
      [⟨"v", "c"⟩]) := by decide +kernel

example : parse fileEnv "<a><b></a></b>".toList = none := by decide +kernel

/-! The XML declaration -/

theorem index_skip {p : Str} {c : Char} {s : Str} (h : ¬ p <+: c :: s) : index p (c :: s) = (index p s).map (· + 1) := by
  rw [index, if_neg h]

theorem index_pass {x : Char} {p : Str} (pre : Str) (s : Str) (h : x ∉ pre) :
    index (x :: p) (pre ++ s) = (index (x :: p) s).map (· + pre.length) := by
  induction pre with
  | nil => simp
  | cons c pre ih =>
    rw [List.mem_cons, not_or] at h
    rw [List.cons_append, index_skip (fun hp => h.1 (List.cons_prefix_cons.1 hp).1), ih h.2, Option.map_map]
    congr 1

theorem index_here {p : Str} {s : Str} (hp : p ≠ []) : index p (p ++ s) = some 0 := by
  cases p with
  | nil => exact absurd rfl hp
  | cons c p => rw [List.cons_append, index, if_pos]; exact List.prefix_append (c :: p) s

theorem index_none {p : Str} (hp : p ≠ []) {s : Str} (h : ¬ p <:+: s) : index p s = none := by
  induction s with
  | nil => rw [index, if_neg hp]
  | cons c s ih =>
    rw [index_skip (fun hh => h hh.isInfix), ih (fun hh => h (hh.trans (List.suffix_cons c s).isInfix))]
    rfl

/-- The value of a pseudo attribute that is found at the right place. -/
theorem procInst_at {param pre v r : Str} {q : Char} (hq : q = '\'' ∨ q = '"') (hv : q ∉ v)
    (hi : index (param ++ ['=']) (pre ++ (param ++ '=' :: q :: (v ++ q :: r))) = some pre.length) :
    procInst param (pre ++ (param ++ '=' :: q :: (v ++ q :: r))) = v := by
  unfold procInst
  have hd : (pre ++ (param ++ '=' :: q :: (v ++ q :: r))).drop (pre.length + (param ++ ['=']).length) = q :: (v ++ q :: r) := by
    rw [show pre ++ (param ++ '=' :: q :: (v ++ q :: r)) = (pre ++ (param ++ ['='])) ++ q :: (v ++ q :: r) by simp,
      ← List.length_append, List.drop_left]
  rw [paramStart, hi]
  simp only [hd, if_pos hq]
  rw [if_pos (by simp)]
  rw [List.takeWhile_append_of_pos (by intro a ha; simp only [ne_eq, decide_not, Bool.not_eq_eq_eq_not, Bool.not_true, decide_eq_false_iff_not]; rintro rfl; exact hv ha)]
  simp

/-- **C119, XML declarations.** Written as in production 23, without white space around the equals signs: accepted iff the version is
1.0 (or empty) and the encoding, if there is one, is UTF-8 in any case or one that the decoder knows. -/
theorem C119_declaration (known : Str → Bool) (q q' : Char) (hq : q = '\'' ∨ q = '"') (hq' : q' = '\'' ∨ q' = '"') (v enc w r : Str)
    (hv : q ∉ v) (he : 'e' ∉ v) (henc : q' ∉ enc) (hw : White w) :
    (declAccepted known ("version=".toList ++ q :: (v ++ q :: (w ++ ("encoding=".toList ++ q' :: (enc ++ q' :: r))))) = true ↔
      (v = [] ∨ v = "1.0".toList) ∧ (enc = [] ∨ enc.map Char.toLower = "utf-8".toList ∨ known enc = true)) ∧
    (¬ "encoding=".toList <:+: "version=".toList ++ q :: (v ++ q :: r) →
      (declAccepted known ("version=".toList ++ q :: (v ++ q :: r)) = true ↔ v = [] ∨ v = "1.0".toList)) := by
  have hver : ∀ r, procInst "version".toList ("version=".toList ++ q :: (v ++ q :: r)) = v := by
    intro r
    have := procInst_at (param := "version".toList) (pre := []) (r := r) hq hv (by
      rw [List.nil_append]
      exact index_here (p := "version=".toList) (s := q :: (v ++ q :: r)) (by decide))
    exact this
  constructor
  · have hen : procInst "encoding".toList ("version=".toList ++ q :: (v ++ q :: (w ++ ("encoding=".toList ++ q' :: (enc ++ q' :: r))))) = enc := by
      have hqe : q ≠ 'e' := by rintro rfl; rcases hq with h | h <;> cases h
      have hwe : 'e' ∉ w := fun h => by
        have := hw _ h
        revert this
        decide
      have := procInst_at (param := "encoding".toList) (pre := "version=".toList ++ q :: (v ++ q :: w)) (r := r) hq' henc (by
        have e0 : ("version=".toList ++ q :: (v ++ q :: w)) ++ ("encoding".toList ++ '=' :: q' :: (enc ++ q' :: r)) =
            'v' :: 'e' :: (("rsion=".toList ++ q :: (v ++ q :: w)) ++ ("encoding=".toList ++ q' :: (enc ++ q' :: r))) := by simp
        rw [e0]
        rw [index_skip (by intro h; exact absurd (List.cons_prefix_cons.1 h).1 (by decide)),
          index_skip (by intro h; exact absurd (List.cons_prefix_cons.1 (List.cons_prefix_cons.1 h).2).1 (by decide))]
        rw [show "encoding".toList ++ ['='] = 'e' :: "ncoding=".toList by decide]
        rw [index_pass _ _ (by simp [he, hwe, hqe.symm])]
        rw [show "encoding=".toList ++ q' :: (enc ++ q' :: r) = ('e' :: "ncoding=".toList) ++ q' :: (enc ++ q' :: r) by simp]
        rw [index_here (by simp)]
        simp)
      rw [show "version=".toList ++ q :: (v ++ q :: (w ++ ("encoding=".toList ++ q' :: (enc ++ q' :: r)))) =
        ("version=".toList ++ q :: (v ++ q :: w)) ++ ("encoding".toList ++ '=' :: q' :: (enc ++ q' :: r)) by simp]
      exact this
    unfold declAccepted
    simp only [hver, hen, Bool.and_eq_true, Bool.or_eq_true, decide_eq_true_eq, or_assoc]
  · intro hno
    have hen : procInst "encoding".toList ("version=".toList ++ q :: (v ++ q :: r)) = [] := by
      unfold procInst
      rw [paramStart, show "encoding".toList ++ ['='] = "encoding=".toList by decide, index_none (by decide) hno]
    unfold declAccepted
    simp only [hver, hen, Bool.and_eq_true, Bool.or_eq_true, decide_eq_true_eq, true_or, and_true]

/-- A value whose quote is not closed counts as absent. -/
theorem C119_declaration_unclosed (known : Str → Bool) (q : Char) (hq : q = '\'' ∨ q = '"') (pre r : Str) (hr : q ∉ r) (he : 'e' ∉ pre)
    (hno : ¬ "version=".toList <:+: pre ++ ("encoding=".toList ++ q :: r)) :
    declAccepted known (pre ++ ("encoding=".toList ++ q :: r)) = true := by
  have hv : procInst "version".toList (pre ++ ("encoding=".toList ++ q :: r)) = [] := by
    unfold procInst
    rw [paramStart, show "version".toList ++ ['='] = "version=".toList by decide, index_none (by decide) hno]
  have hen : procInst "encoding".toList (pre ++ ("encoding=".toList ++ q :: r)) = [] := by
    have hi : index ("encoding".toList ++ ['=']) (pre ++ ("encoding=".toList ++ q :: r)) = some pre.length := by
      rw [show "encoding".toList ++ ['='] = 'e' :: "ncoding=".toList by decide, index_pass _ _ he,
        show "encoding=".toList ++ q :: r = ('e' :: "ncoding=".toList) ++ q :: r by simp, index_here (by simp)]
      simp
    have hd : (pre ++ ("encoding=".toList ++ q :: r)).drop (pre.length + ("encoding".toList ++ ['=']).length) = q :: r := by
      rw [show pre ++ ("encoding=".toList ++ q :: r) = (pre ++ ("encoding".toList ++ ['='])) ++ q :: r by simp,
        ← List.length_append, List.drop_left]
    unfold procInst
    rw [paramStart, hi]
    simp only [hd, if_pos hq, if_neg hr]
  unfold declAccepted
  simp only [hv, hen, decide_true, Bool.true_or, Bool.and_self]

example : declAccepted (fun _ => false) "encoding='latin9".toList = true ∧ '\'' ∉ "latin9".toList ∧
    ¬ "version=".toList <:+: [] ++ ("encoding=".toList ++ '\'' :: "latin9".toList) := by decide +kernel

/-- The environments of this file: `latin1` is accepted in files and not in typed members. -/
example : declAccepted (fun c => decide (c = "latin1".toList)) "version='1.0' encoding=\"latin1\"".toList = true ∧
    declAccepted (fun _ => false) "version='1.0' encoding=\"latin1\"".toList = false ∧
    declAccepted (fun _ => false) "version='1.0' encoding='Utf-8' standalone='yes'".toList = true ∧
    declAccepted (fun _ => false) "version='1.1'".toList = false := by decide +kernel

/-! ## C120 -/

theorem misc_last {e : XmlText.Env} {s : Str} (h : Misc e s) : s = [] ∨ ∃ t c, s = t ++ [c] ∧ (c = '>' ∨ White [c]) := by
  have mk : ∀ {m : Str}, Markup e m [] → ∃ t, m = t ++ ['>'] := by
    intro m hm
    cases hm with
    | cdata s v h1 h2 => exact ⟨"<![CDATA[".toList ++ s ++ "]]".toList, by simp⟩
    | comment s h => exact ⟨"<!--".toList ++ s ++ "--".toList, by simp⟩
    | inst n w d => exact ⟨"<?".toList ++ n ++ w ++ d ++ "?".toList, by simp⟩
    | decl c s h1 h2 h3 =>
      have : ∀ {d : Nat} {s : Str}, Declaration d s → ∃ t, s = t ++ ['>'] := by
        intro d s h
        induction h with
        | done => exact ⟨[], rfl⟩
        | up d s _ ih => obtain ⟨t, rfl⟩ := ih; exact ⟨'>' :: t, rfl⟩
        | quoted d q t s _ _ _ ih => obtain ⟨t', rfl⟩ := ih; exact ⟨q :: t ++ q :: t', by simp⟩
        | comment d t s _ _ ih => obtain ⟨t', rfl⟩ := ih; exact ⟨"<!--".toList ++ t ++ "-->".toList ++ t', by simp⟩
        | down d s _ _ ih => obtain ⟨t, rfl⟩ := ih; exact ⟨'<' :: t, rfl⟩
        | other d c s _ _ _ _ _ ih => obtain ⟨t, rfl⟩ := ih; exact ⟨c :: t, rfl⟩
      obtain ⟨t, rfl⟩ := this h3
      exact ⟨'<' :: '!' :: c :: t, rfl⟩
  induction h with
  | nil => exact .inl rfl
  | white c s hc _ ih =>
    rcases ih with rfl | ⟨t, d, rfl, hd⟩
    · exact .inr ⟨[], c, rfl, .inr hc⟩
    · exact .inr ⟨c :: t, d, rfl, hd⟩
  | markup m s hm _ _ ih =>
    rcases ih with rfl | ⟨t, d, rfl, hd⟩
    · obtain ⟨t, rfl⟩ := mk hm
      exact .inr ⟨t, '>', by simp, .inl rfl⟩
    · exact .inr ⟨m ++ t, d, by simp, hd⟩

theorem element_last {e : XmlText.Env} {sc : Scope} {b : Str} {x : Xml} (h : Element e sc b x) : ∃ t, b = t ++ ['>'] := by
  cases h with
  | empty _ t n' z y l as ht => exact ⟨t ++ ['/'], by simp⟩
  | full _ t n' b0 w0 cs0 z y l as ks0 ht => exact ⟨t ++ '>' :: (b0 ++ ("</".toList ++ (n' ++ w0))), by simp⟩

theorem rooted_last {e : XmlText.Env} {s : Str} (h : Rooted e s) : ∃ t c, s = t ++ [c] ∧ (c = '>' ∨ White [c]) := by
  obtain ⟨a, b, c, x, rfl, _, hb, hc⟩ := h
  rcases misc_last hc with rfl | ⟨t, d, rfl, hd⟩
  · obtain ⟨t, rfl⟩ := element_last hb
    exact ⟨a ++ t, '>', by simp, .inl rfl⟩
  · exact ⟨a ++ (b ++ t), d, by simp, hd⟩

/-- Files are read that are no XML documents: something follows the root element; an attribute is given twice; a prefix is not
declared and is taken for the namespace. -/
theorem C120_fails : (∃ s x, parse fileEnv s = some x ∧ ¬ Rooted fileEnv s) ∧
    (∃ s x, parse fileEnv s = some x ∧ ¬ UniqueAtts x) ∧
    ∃ s x, parse fileEnv s = some x ∧ x.name.space ≠ "" ∧ x.attrs = [] := by
  refine ⟨⟨"<a/>]]> <b".toList, .mk ⟨"", "a"⟩ [] "" "" [], rfl, ?_⟩,
    ⟨"<a b='1' b='2'/>".toList, .mk ⟨"", "a"⟩ [⟨⟨"", "b"⟩, "1"⟩, ⟨⟨"", "b"⟩, "2"⟩] "" "" [], rfl, ?_⟩,
    ⟨"<p:a/>".toList, .mk ⟨"p", "a"⟩ [] "" "" [], rfl, by decide, rfl⟩⟩
  · intro h
    obtain ⟨t, c, h, hc⟩ := rooted_last h
    have := congrArg List.getLast? h
    simp at this
    subst this
    rcases hc with hc | hc
    · simp at hc
    · simp [White] at hc
  · intro h
    have := h _ (.self _)
    simp [Xml.attrs] at this

/-- **C120**, exactly: a text is read as `x` if and only if it begins with a prolog and an element `x`. -/
theorem C120_exact (e : XmlText.Env) (s : Str) (x : Xml) :
    parse e s = some x ↔ ∃ a b c, s = a ++ (b ++ c) ∧ Prolog e a ∧ Element e [] b x := parse_iff e s x

/-- **C120 (fails).** Whatever is put behind a file that is read, it is read as before; so for every such file there is one that is read and is no
XML document. -/
theorem C120_after_fails (e : XmlText.Env) (s : Str) (x : Xml) (h : parse e s = some x) :
    (∀ t, parse e (s ++ t) = some x) ∧ ∃ t, ¬ Rooted e (s ++ t) := by
  refine ⟨fun t => ?_, ['<'], fun hr => ?_⟩
  · obtain ⟨a, b, c, rfl, hp, he⟩ := (parse_iff e s x).1 h
    exact (parse_iff e _ x).2 ⟨a, b, c ++ t, by simp, hp, he⟩
  · obtain ⟨t, c, h, hc⟩ := rooted_last hr
    have := congrArg List.getLast? h
    simp at this
    subst this
    rcases hc with hc | hc
    · simp at hc
    · simp [White] at hc

example : parse fileEnv ("<a/>".toList ++ "<b></a>".toList) = some (.mk ⟨"", "a"⟩ [] "" "" []) :=
  (C120_after_fails fileEnv "<a/>".toList _ rfl).1 _

/-- **C120 (partial).** Of a file that is read, the root element is well-formed: tags match, attribute values are quoted, there
are no undefined references and no forbidden characters. Missing: what `C120_fails` lists. -/
theorem C120_partial (e : XmlText.Env) (s : Str) (x : Xml) (h : parse e s = some x) :
    ∃ a b c, s = a ++ (b ++ c) ∧ Prolog e a ∧ Element e [] b x := (parse_iff e s x).1 h

/-! ## C121 -/

/-- The loader on texts: files are decoded with one decoder, typed members with another. -/
structure Texts (files : String → Option Str) (e : XmlText.Env) (f : Str → Bool) (d : Disk) (w : Hydrate.World) : Prop where
  read : ∀ n, d.read n = (files n).bind (parse e)
  tokens : ∀ s, w.tokens s = XmlText.tokens { e with declOk := f } s

/-- The text in pieces. -/
def joined (l : List String) : Str := l.flatMap String.toList

def hangReport : Str :=
  joined [
    "<xbrl ", "xmlns=\"http://www.xbrl.org/2003/instance\" ", "xmlns:link=\"http://www.xbrl.org/2003/linkbase\" ",
    "xmlns:xlink=\"http://www.w3.org/1999/xlink\" ", "xmlns:x=\"http://x\">", "<link:schemaRef ",
    "xlink:href=\"x.xsd\"/><context ", "id=\"c\"><entity><identifier ", "scheme=\"s\">1</identifier><segment>",
    "<typedMember dimension=\"x:Dim\">", "<?xml version=\"1.0\" ", "encoding=\"latin1\"?><x:A>1</x:A>",
    "</typedMember></segment></entity>", "</context></xbrl>"]

def hangSchema : Str :=
  joined [
    "<schema ", "xmlns=\"http://www.w3.org/2001/XMLSchema\" ", "targetNamespace=\"http://x\">",
    "<element id=\"x_Dim\" name=\"Dim\" ", "type=\"t\"/><element id=\"x_A\" ", "name=\"A\" type=\"t\"/></schema>"]

def hangFiles (n : String) : Option Str :=
  if n = "r.xml" then some hangReport else if n = "x.xsd" then some hangSchema else none

def hangDisk : Disk := { diskDemo with read := fun n => (hangFiles n).bind (parse fileEnv) }
def hangWorld : Hydrate.World := { diskWorld with tokens := XmlText.tokens memberEnv }

def isLoop {α : Type} : Option (Run α) → Bool
  | some .loop => true
  | _ => false

theorem isLoop_iff {α : Type} (r : Option (Run α)) (h : isLoop r = true) : r = some .loop := by
  unfold isLoop at h
  split at h
  · rfl
  · cases h

theorem hangs : isLoop (load hangDisk hangWorld 3 id) = true := by decide +kernel
theorem hangRead : (hangDisk.read "r.xml").isSome = true := by decide +kernel

/-- Loading a folder of well-formed files need not come to an end: the decoder of typed members does not know the encoding that
the decoder of files knows. -/
theorem C121_fails : ∃ files d w x, Texts files fileEnv (declAccepted fun _ => false) d w ∧ d.read "r.xml" = some x ∧
    load d w 3 id = some .loop := by
  obtain ⟨x, hx⟩ := Option.isSome_iff_exists.1 hangRead
  exact ⟨hangFiles, hangDisk, hangWorld, x, ⟨fun _ => rfl, fun _ => rfl⟩, hx, isLoop_iff _ hangs⟩

theorem instEnd_free {b0 : Char} (hb : b0 ≠ '?') (dcl t : Str) (h : '?' ∉ dcl) :
    instEnd b0 (dcl ++ ("?>".toList ++ t)) = some (dcl ++ ['?'], t) := by
  induction dcl generalizing b0 with
  | nil => simp [instEnd, hb]
  | cons c r ih =>
    simp only [List.mem_cons, not_or] at h
    rw [List.cons_append, instEnd, if_neg (by simp [hb]), ih (Ne.symm h.1) h.2]
    rfl

/-- A declaration that is not accepted ends the tokens before they begin. -/
theorem tokens_declared (e : XmlText.Env) (inner : String) (c : Char) (dcl t : Str) (hc : isWhite c = false) (hq : '?' ∉ c :: dcl)
    (hf : e.declOk (c :: dcl) = false) (hi : inner.toList = "<?xml ".toList ++ (c :: dcl ++ ("?>".toList ++ t))) :
    XmlText.tokens e inner = ⟨[], false⟩ := by
  have hr : rawToken e inner.toList = none := by
    rw [hi, show "<?xml ".toList ++ (c :: dcl ++ ("?>".toList ++ t)) = '<' :: '?' :: ("xml".toList ++ (' ' :: (c :: dcl ++ ("?>".toList ++ t)))) by
      simp]
    have hn : name e ("xml".toList ++ (' ' :: (c :: dcl ++ ("?>".toList ++ t)))) = some ("xml".toList, ' ' :: (c :: dcl ++ ("?>".toList ++ t))) := by
      have h1 : List.takeWhile nameish ("xml".toList ++ (' ' :: (c :: dcl ++ ("?>".toList ++ t)))) = "xml".toList := by
        simp [List.takeWhile, show nameish 'x' = true by decide, show nameish 'm' = true by decide, show nameish 'l' = true by decide,
          show nameish ' ' = false by decide]
      have h2 : List.dropWhile nameish ("xml".toList ++ (' ' :: (c :: dcl ++ ("?>".toList ++ t)))) = ' ' :: (c :: dcl ++ ("?>".toList ++ t)) := by
        simp [List.dropWhile, show nameish 'x' = true by decide, show nameish 'm' = true by decide, show nameish 'l' = true by decide,
          show nameish ' ' = false by decide]
      unfold name
      rw [h1, h2, if_pos]
      simp [isName, isFirst, isLetter]
    rw [rawToken, hn]
    have hd : List.dropWhile isWhite (' ' :: (c :: dcl ++ ("?>".toList ++ t))) = c :: dcl ++ ("?>".toList ++ t) := by
      simp [List.dropWhile, show isWhite ' ' = true by decide, hc]
    simp only [hd, instEnd_free (show '\x00' ≠ '?' by decide) (c :: dcl) t hq]
    rw [if_pos]
    refine ⟨trivial, ?_⟩
    rw [← hf]
    congr 1
    simp
  unfold XmlText.tokens
  cases hs : inner.toList with
  | nil => rw [hi] at hs; simp at hs
  | cons a r => rw [stream, ← hs, hr]; simp

/-- **C121 (fails).** No folder is ever loaded, whatever the order of the goroutines, in which a typed member of a context of the report
begins with an XML declaration that the decoder of typed members does not accept, if its dimension is known. -/
theorem C121_all_fails (files : String → Option Str) (e : XmlText.Env) (f : Str → Bool) (d : Disk) (w : Hydrate.World)
    (ht : Texts files e f d w) (fuel : Nat) (sched : List (Disc.Write LinkbaseFile) → List (Disc.Write LinkbaseFile))
    (fo : Files) (h : Hydratable) (key : String) (inst : Disc.InstanceFile) (hE : Disc.EntryInstance d.env key inst) (root : Xml)
    (hread : d.read key = some root) (file : InstFile) (hfile : instanceFile root = some file)
    (ctx : CtxElem) (hctx : ctx ∈ file.contexts) (ent : EntityElem) (r scheme ident : String) (hid : Identified ctx ent r scheme ident)
    (g : DimElem) (rest : List DimElem) (hg : ent.segments = g :: rest ∨ ctx.scenarios = g :: rest) (m : MemberElem) (hm : m ∈ g.typed)
    (dim l : String) (concept : Concept) (hdim : AttrVal m.attrs "dimension" dim)
    (hres : Resolves (instanceWorld w fo file) dim (l ++ "#" ++ concept.id) concept)
    (hl : '#' ∉ l.toList)
    (c : Char) (dcl t : Str) (hc : isWhite c = false) (hq : '?' ∉ c :: dcl) (hf : f (c :: dcl) = false)
    (hi : m.chars.toList = "<?xml ".toList ++ (c :: dcl ++ ("?>".toList ++ t))) :
    load d w fuel sched ≠ some (.done (some (fo, h))) := by
  intro hload
  rcases load_instances hload with ⟨_, hno⟩ | ⟨key', inst', root', file', i, hE', hr', hf', _, _, _, hrd⟩
  · exact absurd hE (hno _ _)
  obtain ⟨rfl, rfl⟩ := entryInstance_unique hE hE'
  rw [hread] at hr'; cases hr'
  rw [hfile] at hf'; cases hf'
  have hdecl : Schema.Declares (queryEnv w fo) l concept := by
    obtain ⟨n, _, _, l', sf, cs, _, h2, h3, h4, h5⟩ := hres
    obtain ⟨x, hx, hxc⟩ := collected_mem h3 _ (firstWith_mem h4).1
    have := congrArg String.toList h5
    simp only [String.toList_append, List.append_left_inj] at this
    rw [String.toList_inj.1 this]
    exact ⟨sf, h2, x, hx, hxc⟩
  have hstuck : ∀ es, es = g :: rest → StuckDims (instanceWorld w fo file) es := fun es he =>
    ⟨g, rest, he, m, hm, dim, _, concept, hdim, hres, fun out => by
      obtain ⟨c', hh, _⟩ := hashQuery_declared (queryEnv w fo).namespaces hdecl hl
      unfold hydrateTypedMembers
      change (match hashQuery (queryEnv w fo) (queryEnv w fo).namespaces (l ++ "#" ++ concept.id) with
        | .ok (_, dim) => walk (instanceWorld w fo file) dim ⟨[], [], 0, [], l ++ "#" ++ concept.id, some dim⟩ (w.tokens m.chars).eof (w.tokens m.chars).toks
        | .err _ => .done ([], [])
        | .panic => .panic) ≠ .done out
      rw [hh, ht.tokens, tokens_declared _ _ c dcl t hc hq hf hi]
      simp [walk]⟩
  exact (hrd ctx hctx).2 ⟨ent, r, scheme, ident, hid, hg.imp (hstuck _) (hstuck _)⟩

def hangMembers : Option (List (Option String × String)) :=
  ((hangDisk.read "r.xml").bind instanceFile).map fun f => f.contexts.flatMap fun c => c.entities.flatMap fun x => x.segments.flatMap fun g =>
    g.typed.map fun m => (plainAttr m.attrs "dimension", m.chars)

/-- The report of `C121_fails` has such a typed member. -/
example : hangMembers = some [(some "x:Dim", "<?xml version=\"1.0\" encoding=\"latin1\"?><x:A>1</x:A>")] ∧
    declAccepted (fun _ => false) "version=\"1.0\" encoding=\"latin1\"".toList = false := by
  decide +kernel

/-- **C121 (partial).** Loading comes to an end, whatever the files, unless `<?xml` occurs in a typed member of an instance
(`C121_fails`). -/
theorem C121_ends_partial (files : String → Option Str) (e : XmlText.Env) (f : Str → Bool) (d : Disk) (w : Hydrate.World)
    (ht : Texts files e f d w)
    (hd : ∀ n s x y, files n = some s → IsDocument e s x → x.name.loc = "xbrl" → Within x y → y.name.loc = "typedMember" →
      ¬ "<?xml".toList <:+: y.inner.toList)
    (fuel : Nat) (sched : List (Disc.Write LinkbaseFile) → List (Disc.Write LinkbaseFile)) : load d w fuel sched ≠ some .loop := by
  intro h
  obtain ⟨n, x, y, hr, hx, hy, hn, he⟩ := load_loop h
  rw [ht.read] at hr
  obtain ⟨s, hs, hp⟩ := Option.bind_eq_some_iff.1 hr
  rw [parse_iff] at hp
  obtain ⟨sc, cs, hc, _⟩ := good_within hp hy
  have hc' := content_env f _ _ _ _ _ (Nat.lt_succ_self _) hc (hd n s x y hs hp hx hy hn)
  obtain ⟨ts, hts⟩ := tokens_of_content _ _ [] _ [] _ _ _ (Nat.lt_succ_self _) agree_nil (clean_nil _) hc'
  rw [ht.tokens, (tokens_iff _ _ _).2 hts] at he
  cases he

/-- A folder with a typed member that meets the hypotheses of `C121_ends_partial` and is loaded. -/
def endReport : Str :=
  joined [
    "<xbrl ", "xmlns=\"http://www.xbrl.org/2003/instance\" ", "xmlns:link=\"http://www.xbrl.org/2003/linkbase\" ",
    "xmlns:xlink=\"http://www.w3.org/1999/xlink\" ", "xmlns:x=\"http://x\">", "<link:schemaRef ",
    "xlink:href=\"x.xsd\"/><context ", "id=\"c\"><entity><identifier ", "scheme=\"s\">1</identifier><segment>",
    "<typedMember dimension=\"x:Dim\">", "<!-- a --><x:A>1</x:A>", "</typedMember></segment></entity>", "</context></xbrl>"]

def endFiles (n : String) : Option Str :=
  if n = "r.xml" then some endReport else if n = "x.xsd" then some hangSchema else none

def endDisk : Disk := { diskDemo with read := fun n => (endFiles n).bind (parse fileEnv) }

def typedShown : Option (List (String × List (GoMap String String))) :=
  match load endDisk hangWorld 3 id with
  | some (.done (some (_, h))) => some (h.instances.flatMap fun i => i.2.contexts.map fun c => (c.id, c.segment.typed.map TypedMember.members))
  | _ => none

theorem typedShown_eq : typedShown = some [("c", [[("x.xsd#x_A", "1")]])] := by decide +kernel

theorem endPlain : ¬ "<?xml".toList <:+: endReport := by decide +kernel
theorem hangPlain : ¬ "<?xml".toList <:+: hangSchema := by decide +kernel

example : Texts endFiles fileEnv (declAccepted fun _ => false) endDisk hangWorld ∧
    ∀ n s x y, endFiles n = some s → IsDocument fileEnv s x → x.name.loc = "xbrl" → Within x y → y.name.loc = "typedMember" →
      ¬ "<?xml".toList <:+: y.inner.toList := by
  refine ⟨⟨fun _ => rfl, fun _ => rfl⟩, ?_⟩
  intro n s x y hn hd _ hy _ hi
  have := hi.trans (document_infix hd hy)
  unfold endFiles at hn
  split at hn
  · rw [← Option.some.inj hn] at this; exact endPlain this
  · split at hn
    · rw [← Option.some.inj hn] at this; exact hangPlain this
    · cases hn

/-- The tokens of a typed member are those of its source text, read on its own: prefixes declared outside are not resolved. -/
theorem C121_tokens (e : XmlText.Env) (inner : String) (ts : List Tok) :
    XmlText.tokens e inner = ⟨ts, true⟩ ↔ Tokens e [] inner.toList ts := tokens_iff e inner ts

example : XmlText.tokens memberEnv "<x:A>1 &amp; 2<x:B xmlns:x='u'/></x:A>" =
    ⟨[.start ⟨"x", "A"⟩, .text "1 & 2", .start ⟨"u", "B"⟩, .stop ⟨"u", "B"⟩, .stop ⟨"x", "A"⟩], true⟩ := by decide +kernel

/-! ## C122 -/

/-- The source text of an element is its value iff there is no markup, reference or carriage return in it. -/
theorem C122_text_partial (e : XmlText.Env) (s : Str) (x y : Xml) (h : parse e s = some x) (hy : Within x y) :
    (y.inner = y.chars ↔ '<' ∉ y.inner.toList ∧ '&' ∉ y.inner.toList ∧ '\r' ∉ y.inner.toList) ∧
    ('<' ∉ y.inner.toList → y.kids = []) := by
  obtain ⟨sc, cs, hc, he⟩ := good_within ((parse_iff e s x).1 h) hy
  rw [he]
  refine ⟨⟨fun hi => ?_, fun ⟨h1, h2, h3⟩ => ?_⟩, ?_⟩
  · apply (content_length _ _ _ _ _ _ (Nat.lt_succ_self _) hc).2
    rw [hi]; simp
  · rw [(content_plain hc h1 h2 h3).1]; simp
  · intro h1
    cases hk : y.kids with
    | nil => rfl
    | cons k ks =>
      rw [hk] at hc
      exact absurd (kids_lt hc) h1

def textReport (v : String) : Str :=
  joined [
    "<?xml version=\"1.0\"?>\n<xbrli:xbrl ", "xmlns:xbrli=\"http://www.xbrl.org/2003/instance\" ",
    "xmlns:link=\"http://www.xbrl.org/2003/linkbase\" ", "xmlns:xlink=\"http://www.w3.org/1999/xlink\" ",
    "xmlns:x=\"http://x\">", "\n<link:schemaRef ", "xlink:href=\"x.xsd\"/>", "\n<xbrli:context id=\"c\">",
    "<xbrli:entity><xbrli:identifier ", "scheme=\"s\">1</xbrli:identifier>", "</xbrli:entity><xbrli:period>", "<xbrli:instant>",
    "2020-12-31</xbrli:instant>", "</xbrli:period></xbrli:context>", "\n<x:Cash contextRef=\"c\" id=\"f1\">"] ++ v.toList ++ joined ["</x:Cash>\n</xbrli:xbrl>"]

def textSchema : Str :=
  joined [
    "<xs:schema ", "xmlns:xs=\"http://www.w3.org/2001/XMLSchema\" ", "xmlns:link=\"http://www.xbrl.org/2003/linkbase\" ",
    "xmlns:xlink=\"http://www.w3.org/1999/xlink\" ", "targetNamespace=\"http://x\">", "<xs:annotation><xs:appinfo>",
    "<link:linkbaseRef ", "xlink:arcrole=\"http://www.w3.org/1999/xlink/properties/linkbase\" ", "xlink:type=\"simple\" ",
    "xlink:role=\"http://www.xbrl.org/2003/role/presentationLinkbaseRef\" ", "xlink:href=\"p.xml\"/></xs:appinfo>",
    "</xs:annotation><xs:element ", "id=\"x_Cash\" name=\"Cash\" type=\"t\"/>", "</xs:schema>"]

def textLinks : Str :=
  joined [
    "<link:linkbase ", "xmlns:link=\"http://www.xbrl.org/2003/linkbase\" ", "xmlns:xlink=\"http://www.w3.org/1999/xlink\">",
    "<link:roleRef roleURI=\"r\" ", "xlink:href=\"x.xsd#r\"/>", "<link:presentationLink ", "xlink:type=\"extended\" ",
    "xlink:role=\"r\"><link:loc ", "xlink:type=\"locator\" ", "xlink:href=\"x.xsd#x_Cash\" ", "xlink:label=\"cash\"/>",
    "<link:presentationArc ", "xlink:type=\"arc\" ", "xlink:arcrole=\"http://www.xbrl.org/2003/arcrole/parent-child\" ",
    "xlink:from=\"root\" xlink:to=\"cash\" ", "order=\"1\"/>", "</link:presentationLink>", "</link:linkbase>"]

def textFiles (v : String) (n : String) : Option Str :=
  if n = "r.xml" then some (textReport v) else if n = "x.xsd" then some textSchema else if n = "p.xml" then some textLinks
  else none

def textDisk (v : String) : Disk := { diskDemo with read := fun n => (textFiles v n).bind (parse fileEnv) }

def textShown (v : String) : Option (List String × List (List (List (String × String)))) :=
  match load (textDisk v) hangWorld 3 id with
  | some (.done (some (fo, h))) =>
    match diskServed fo h with
    | .done g => some (g.p.rows.map IndentedLabel.href, cellTexts g.p.quadrant.facts)
    | _ => none
  | _ => none

def textValue (v : String) : Option (List (XName × String)) :=
  ((textDisk v).read "r.xml").map fun x => (x.named "Cash").map fun k => (k.name, k.chars)

theorem textValue_eq : textValue "A &amp; B" = some [(⟨"http://x", "Cash"⟩, "A & B")] ∧ textValue "<![CDATA[A & B]]>" = some [(⟨"http://x", "Cash"⟩, "A & B")] := by
  decide +kernel

theorem textShown_amp : textShown "A &amp; B" = some (["x.xsd#x_Cash"], [[[("Unlabelled", "A &amp; B")]]]) := by decide +kernel
theorem textShown_cdata : textShown "<![CDATA[A & B]]>" = some (["x.xsd#x_Cash"], [[[("Unlabelled", "<![CDATA[A & B]]>")]]]) := by decide +kernel

/-- Two reports that say the same are shown differently, and neither as what they say. -/
theorem C122_fails : ∃ v v' value shown shown', textValue v = some [value] ∧ textValue v' = some [value] ∧
    textShown v = some (["x.xsd#x_Cash"], [[[("Unlabelled", shown)]]]) ∧ textShown v' = some (["x.xsd#x_Cash"], [[[("Unlabelled", shown')]]]) ∧
    shown ≠ shown' ∧ shown ≠ value.2 ∧ shown' ≠ value.2 :=
  ⟨_, _, _, _, _, textValue_eq.1, textValue_eq.2, textShown_amp, textShown_cdata, by decide, by decide, by decide⟩

/-! ## C123 -/

open Telefacts.Json Telefacts.Catalog

/-- **C122**, exactly: of a fact that is reported without accuracy and is not nil, the client finds the value if and only if it is written
without markup, references or carriage returns. -/
theorem C122_exact (files : String → Option Str) (e : XmlText.Env) (f : Str → Bool) (d : Disk) (w : Hydrate.World)
    (ht : Texts files e f d w) (hw : Fair w) (hurl : w.validUrl = d.isUrl) (fuel : Nat)
    (sched : List (Disc.Write LinkbaseFile) → List (Disc.Write LinkbaseFile)) (hperm : ∀ ws, (sched ws).Perm ws)
    (fo : Files) (h : Hydratable) (hl : load d w fuel sched = some (.done (some (fo, h))))
    (key : String) (s : Str) (root : Xml) (inst : Disc.InstanceFile) (hkey : Disc.EntryInstance d.env key inst) (hs : files key = some s)
    (hroot : IsDocument e s root) (file : InstFile) (hfile : instanceFile root = some file)
    (x : Xml) (c : Concept) (r : String) (hx : Reports root x c r)
    (l : String) (sx : Xml) (hsx : SchemaAt d w.discover inst x.name.space l sx) (hc : DeclaredIn sx l c) (hdist : Distinct sx l c)
    (habs : c.abstract = false) (hids : ∀ l' c', Declares (queryEnv w fo) l' c' → '#' ∉ c'.id.toList)
    (cc : Context) (hcc : HasContext (instanceWorld w fo file) root r cc) (entity : String) (hent : OfEntity entity cc)
    (tree : List Arc → String → Node) (env : GridEnv (Option MultilingualFact)) (hord : ∀ m, (env.memberOrder m).Perm m)
    (fe : FactEnv) (hfe : fe.concept = (renderFolder w fo h tree).concept)
    (notes : Option Fact → List Footnote) (co : Nat → Nat → GoMap String Footnote → GoMap String Footnote)
    (lo : GoMap String Footnote → GoMap String Footnote) (hsrc : env.source = folderSource (values h.instances) fe notes co lo)
    (hdec : ∀ s, ¬ AttrVal x.attrs "decimals" s) (htype : c.type.loc ≠ "textBlockItemType")
    (spanish : Date → Option String) (gs : Schedule) (b : Books) (role : String) (g : Grids (Option MultilingualFact))
    (hg : renderGrids (renderFolder w fo h tree) env spanish gs b entity role = .done g) (subject : Subject) (rset : RSet) :
    ∃ v core, (∀ v', IsText (marshalRenderable (calcFound role [] b.calculation) ⟨subject, rset, g⟩) v' ↔ v' = v) ∧
      (¬ IsSet x.attrs "nil" → (core = x.chars ↔ '<' ∉ x.inner.toList ∧ '&' ∉ x.inner.toList ∧ '\r' ∉ x.inner.toList)) ∧
      (∀ p, At v [.key "PGrid"] p → (∃ n, PRow p n (l ++ "#" ++ c.id)) → CoreShown p (PRow p) (l ++ "#" ++ c.id) cc core) ∧
      (∀ k p, At v [.key "DGrid", .key "RootDomains", .idx k] p → (∃ n, DRow p n (l ++ "#" ++ c.id)) →
        CoreShown p (DRow p) (l ++ "#" ++ c.id) cc core) ∧
      (∀ k p, At v [.key "CGrid", .key "SummationItems", .idx k] p → (∃ n, CRow p n (l ++ "#" ++ c.id)) →
        CoreShown p (CRow p) (l ++ "#" ++ c.id) cc core) := by
  have hp := (XmlText.parse_iff e s root).2 hroot
  have hr : d.read key = some root := by rw [ht.read, hs]; exact hp
  obtain ⟨v, core, hv, hcore, hshown⟩ := C118_served d w hw hurl fuel sched hperm fo h hl root inst ⟨key, hkey, hr⟩ file hfile
    x c r hx l sx hsx hc hdist habs hids cc hcc entity hent tree env hord fe hfe notes co lo hsrc hdec htype spanish gs b role g hg subject rset
  refine ⟨v, core, hv, fun hnil => ?_, hshown⟩
  rcases hcore with ⟨h1, _⟩ | ⟨_, rfl⟩
  · exact absurd h1 hnil
  · exact (C122_text_partial e s root x hp (.kid _ x _ hx.kid (.self x))).1

/-- **C123.** From the texts of the files to the answer: a fact that is reported without accuracy and whose value is written
without markup, references or carriage returns is found by the client with its value. -/
theorem C123_text (files : String → Option Str) (e : XmlText.Env) (f : Str → Bool) (d : Disk) (w : Hydrate.World)
    (ht : Texts files e f d w) (hw : Fair w) (hurl : w.validUrl = d.isUrl) (fuel : Nat)
    (sched : List (Disc.Write LinkbaseFile) → List (Disc.Write LinkbaseFile)) (hperm : ∀ ws, (sched ws).Perm ws)
    (fo : Files) (h : Hydratable) (hl : load d w fuel sched = some (.done (some (fo, h))))
    (key : String) (s : Str) (root : Xml) (inst : Disc.InstanceFile) (hkey : Disc.EntryInstance d.env key inst) (hs : files key = some s)
    (hroot : IsDocument e s root) (file : InstFile) (hfile : instanceFile root = some file)
    (x : Xml) (c : Concept) (r : String) (hx : Reports root x c r)
    (hplain : '<' ∉ x.inner.toList ∧ '&' ∉ x.inner.toList ∧ '\r' ∉ x.inner.toList)
    (l : String) (sx : Xml) (hsx : SchemaAt d w.discover inst x.name.space l sx) (hc : DeclaredIn sx l c) (hdist : Distinct sx l c)
    (habs : c.abstract = false) (hids : ∀ l' c', Declares (queryEnv w fo) l' c' → '#' ∉ c'.id.toList)
    (cc : Context) (hcc : HasContext (instanceWorld w fo file) root r cc) (entity : String) (hent : OfEntity entity cc)
    (tree : List Arc → String → Node) (env : GridEnv (Option MultilingualFact)) (hord : ∀ m, (env.memberOrder m).Perm m)
    (fe : FactEnv) (hfe : fe.concept = (renderFolder w fo h tree).concept)
    (notes : Option Fact → List Footnote) (co : Nat → Nat → GoMap String Footnote → GoMap String Footnote)
    (lo : GoMap String Footnote → GoMap String Footnote) (hsrc : env.source = folderSource (values h.instances) fe notes co lo)
    (hdec : ∀ s, ¬ AttrVal x.attrs "decimals" s) (htype : c.type.loc ≠ "textBlockItemType")
    (spanish : Date → Option String) (gs : Schedule) (b : Books) (role : String) (g : Grids (Option MultilingualFact))
    (hg : renderGrids (renderFolder w fo h tree) env spanish gs b entity role = .done g) (subject : Subject) (rset : RSet) :
    ∃ v core, (∀ v', IsText (marshalRenderable (calcFound role [] b.calculation) ⟨subject, rset, g⟩) v' ↔ v' = v) ∧
      ((IsSet x.attrs "nil" ∧ core = "nil") ∨ (¬ IsSet x.attrs "nil" ∧ core = x.chars)) ∧
      (∀ p, At v [.key "PGrid"] p → (∃ n, PRow p n (l ++ "#" ++ c.id)) → CoreShown p (PRow p) (l ++ "#" ++ c.id) cc core) ∧
      (∀ k p, At v [.key "DGrid", .key "RootDomains", .idx k] p → (∃ n, DRow p n (l ++ "#" ++ c.id)) →
        CoreShown p (DRow p) (l ++ "#" ++ c.id) cc core) ∧
      (∀ k p, At v [.key "CGrid", .key "SummationItems", .idx k] p → (∃ n, CRow p n (l ++ "#" ++ c.id)) →
        CoreShown p (CRow p) (l ++ "#" ++ c.id) cc core) := by
  have hp := (XmlText.parse_iff e s root).2 hroot
  have hr : d.read key = some root := by rw [ht.read, hs]; exact hp
  have := C118_served d w hw hurl fuel sched hperm fo h hl root inst ⟨key, hkey, hr⟩ file hfile x c r hx l sx hsx hc hdist habs hids cc hcc
    entity hent tree env hord fe hfe notes co lo hsrc hdec htype spanish gs b role g hg subject rset
  rwa [((C122_text_partial e s root x hp (.kid _ x _ hx.kid (.self x))).1).2 hplain] at this

def textPlain (v : String) : Option (List (String × String × String × Bool)) :=
  ((textDisk v).read "r.xml").map fun x => (x.named "Cash").map fun k => (k.name.space, k.name.loc, k.chars,
    decide ('<' ∉ k.inner.toList ∧ '&' ∉ k.inner.toList ∧ '\r' ∉ k.inner.toList ∧ plainAttr k.attrs "decimals" = none))

/-- The texts of a folder that meet the hypotheses of `C123_text` beyond those of `C118_served`: the value is plain, has no
accuracy, and is served. -/
example : Texts (textFiles "100") fileEnv (declAccepted fun _ => false) (textDisk "100") hangWorld ∧
    hangWorld.validUrl = (textDisk "100").isUrl ∧ textPlain "100" = some [("http://x", "Cash", "100", true)] ∧
    textShown "100" = some (["x.xsd#x_Cash"], [[[("Unlabelled", "100")]]]) :=
  ⟨⟨fun _ => rfl, fun _ => rfl⟩, rfl, by decide +kernel, by decide +kernel⟩

end Telefacts
