import Verif.Model.Xml
/-!
# encoding/xml (Go 1.22): from the text of a file to the tree

`xml.NewDecoder(reader).Decode` as called e.g. at pkg/serializables/instanceFile.go:133-136, and `Token` as called at
pkg/hydratables/instance.go:334-347. The decoder is strict and has no entities of its own. The library is modelled from its
documentation and source as known; the file is encoding/xml/xml.go. Texts are lists of characters (valid UTF-8; a file with a
declared encoding is meant as converted). What `Unmarshal` fills is in `Verif.Model.Xml`; here is the tree it is filled from.
-/
namespace Telefacts.XmlText

abbrev Str := List Char

/-- What depends on tables or on the reader: name characters from U+0080 on (xml.go `first`, `second`), and whether the
content of an XML declaration is accepted (version 1.0 or none; no encoding, UTF-8, or one that `CharsetReader` knows). -/
structure Env where
  first : Char → Bool
  second : Char → Bool
  declOk : Str → Bool

/-- xml.go `space`: ' ', '\r', '\n', '\t'. -/
def isWhite (c : Char) : Bool := c = ' ' || c = '\r' || c = '\n' || c = '\t'

/-- xml.go `isNameByte`, letters. -/
def isLetter (c : Char) : Bool := ('A' ≤ c && c ≤ 'Z') || ('a' ≤ c && c ≤ 'z')

/-- xml.go `isNameByte`, and `b < utf8.RuneSelf` in `readName`. -/
def nameish (c : Char) : Bool :=
  isLetter c || ('0' ≤ c && c ≤ '9') || c = '_' || c = ':' || c = '.' || c = '-' || 128 ≤ c.toNat

/-- `unicode.Is(first, c)` -/
def isFirst (e : Env) (c : Char) : Bool := if c.toNat < 128 then isLetter c || c = '_' || c = ':' else e.first c

/-- `unicode.Is(second, c)` -/
def isSecond (e : Env) (c : Char) : Bool :=
  if c.toNat < 128 then ('0' ≤ c && c ≤ '9') || c = '.' || c = '-' else e.second c

/-- xml.go `isName` -/
def isName (e : Env) : Str → Bool
  | [] => false
  | c :: t => isFirst e c && t.all fun d => isFirst e d || isSecond e d

/-- xml.go `name`: `readName` takes the longest run; when the input ends there, what comes next fails. -/
def name (e : Env) (s : Str) : Option (Str × Str) :=
  if isName e (s.takeWhile nameish) then some (s.takeWhile nameish, s.dropWhile nameish) else none

/-- xml.go `nsname`: prefix and local name. -/
def nsname (e : Env) (s : Str) : Option (XName × Str) :=
  match name e s with
  | none => none
  | some (n, r) =>
    if 1 < n.count ':' then none
    else
      let p := n.takeWhile (· ≠ ':')
      let l := n.drop (p.length + 1)
      if p = n ∨ p = [] ∨ l = [] then some (⟨"", String.ofList n⟩, r)
      else some (⟨String.ofList p, String.ofList l⟩, r)

/-- xml.go `isInCharacterRange` -/
def inRange (c : Char) : Bool :=
  let n := c.toNat
  n = 9 || n = 10 || n = 13 || (32 ≤ n && n ≤ 0xD7FF) || (0xE000 ≤ n && n ≤ 0xFFFD) || 0x10000 ≤ n

/-- xml.go `entity` -/
def entities : List (Str × Char) :=
  [("lt".toList, '<'), ("gt".toList, '>'), ("amp".toList, '&'), ("apos".toList, '\''), ("quot".toList, '"')]

/-- `string(rune(n))`: a surrogate becomes U+FFFD. -/
def runeText (n : Nat) : Char := if 0xD800 ≤ n ∧ n < 0xE000 then Char.ofNat 0xFFFD else Char.ofNat n

/-- The value of a digit. -/
def digit (c : Char) : Nat :=
  if c.toNat < 58 then c.toNat - 48 else if c.toNat < 71 then c.toNat - 55 else c.toNat - 87

/-- xml.go `text`: the digits that are read in base 10 or 16. -/
def isDigit (base : Nat) (c : Char) : Bool :=
  ('0' ≤ c && c ≤ '9') || (base = 16 && (('a' ≤ c && c ≤ 'f') || ('A' ≤ c && c ≤ 'F')))

/-- xml.go `text`: `&#`, the digits, `;`; `strconv.ParseUint` fails without digits or with too large numbers. -/
def charRef (base : Nat) (s : Str) : Option (Char × Str) :=
  let ds := s.takeWhile (isDigit base)
  match s.dropWhile (isDigit base) with
  | ';' :: r =>
    if ds = [] then none
    else
      let n := ds.foldl (fun a c => base * a + digit c) 0
      if n ≤ 0x10FFFF then some (runeText n, r) else none
  | _ => none

/-- xml.go `text`: what follows `&`. -/
def entity (e : Env) : Str → Option (Char × Str)
  | '#' :: 'x' :: r => charRef 16 r
  | '#' :: r => charRef 10 r
  | s =>
    match s.dropWhile nameish with
    | ';' :: r => if isName e (s.takeWhile nameish) then (mapGet entities (s.takeWhile nameish)).map (·, r) else none
    | _ => none

/-- xml.go `text`: the loop. `q` is the quote that ends the text, `b0` and `b1` are the last two characters. -/
def textLoop (e : Env) : Nat → Option Char → Bool → Char → Char → Str → Option (Str × Str)
  | 0, _, _, _, _, _ => none
  | _ + 1, _, cdata, _, _, [] => if cdata then none else some ([], [])
  | n + 1, q, cdata, b0, b1, b :: r =>
    if q = none ∧ b0 = ']' ∧ b1 = ']' ∧ b = '>' then (if cdata then some ([], r) else none)
    else if b = '<' ∧ cdata = false then (if q = none then some ([], b :: r) else none)
    else if q = some b then some ([], r)
    else if b = '&' ∧ cdata = false then
      match entity e r with
      | none => none
      | some (c, r') => (textLoop e n q cdata '\x00' '\x00' r').map fun p => (c :: p.1, p.2)
    else if b = '\r' then (textLoop e n q cdata b1 b r).map fun p => ('\n' :: p.1, p.2)
    else if b1 = '\r' ∧ b = '\n' then textLoop e n q cdata b1 b r
    else (textLoop e n q cdata b1 b r).map fun p => (b :: p.1, p.2)

/-- xml.go `text`: the `]]` of a CDATA section is cut off; all characters must be in the range. -/
def text (e : Env) (q : Option Char) (cdata : Bool) (s : Str) : Option (Str × Str) :=
  match textLoop e (s.length + 1) q cdata '\x00' '\x00' s with
  | none => none
  | some (v, r) =>
    let d := if cdata then v.take (v.length - 2) else v
    if d.all inRange then some (d, r) else none

/-- The attributes of a start tag; `true` when it ends with `/>` (xml.go `rawToken`, the loop over attributes). -/
def attributes (e : Env) : Nat → Str → Option (List (XName × Str) × Bool × Str)
  | 0, _ => none
  | n + 1, s =>
    match s.dropWhile isWhite with
    | '/' :: '>' :: r => some ([], true, r)
    | '/' :: _ => none
    | '>' :: r => some ([], false, r)
    | s' =>
      match nsname e s' with
      | none => none
      | some (x, r) =>
        match r.dropWhile isWhite with
        | '=' :: r2 =>
          match r2.dropWhile isWhite with
          | q :: r3 =>
            if q = '"' ∨ q = '\'' then
              match text e (some q) false r3 with
              | none => none
              | some (v, r4) => (attributes e n r4).map fun p => ((x, v) :: p.1, p.2)
            else none
          | [] => none
        | _ => none

/-- xml.go `rawToken`: the end of a comment. -/
def commentEnd : Char → Char → Str → Option Str
  | _, _, [] => none
  | b0, b1, b :: r => if b0 = '-' ∧ b1 = '-' then (if b = '>' then some r else none) else commentEnd b1 b r

/-- xml.go `rawToken`: the data of a processing instruction. -/
def instEnd : Char → Str → Option (Str × Str)
  | _, [] => none
  | b0, b :: r => if b0 = '?' ∧ b = '>' then some ([], r) else (instEnd b r).map fun p => (b :: p.1, p.2)

/-- xml.go `rawToken`: the end of a comment in a directive. -/
def innerCommentEnd : Char → Char → Str → Option Str
  | _, _, [] => none
  | b0, b1, b :: r => if b0 = '-' ∧ b1 = '-' ∧ b = '>' then some r else innerCommentEnd b1 b r

/-- xml.go `rawToken`: the end of a directive; `q` is the open quote. -/
def directiveEnd : Nat → Option Char → Nat → Str → Option Str
  | 0, _, _, _ => none
  | _ + 1, _, _, [] => none
  | n + 1, q, depth, b :: r =>
    if q = none ∧ b = '>' ∧ depth = 0 then some r
    else if q = some b then directiveEnd n none depth r
    else if q ≠ none then directiveEnd n q depth r
    else if b = '\'' ∨ b = '"' then directiveEnd n (some b) depth r
    else if b = '>' then directiveEnd n q (depth - 1) r
    else if b = '<' then
      match r with
      | '!' :: '-' :: '-' :: r' =>
        match innerCommentEnd '\x00' '\x00' r' with
        | none => none
        | some r2 => directiveEnd n q depth r2
      | _ => directiveEnd n q (depth + 1) r
    else directiveEnd n q depth r

/-- The tokens; `other` are comments, processing instructions and directives. A start tag carries whether it is closed. -/
inductive Raw where
  | start (n : XName) (attrs : List (XName × Str)) (closed : Bool)
  | stop (n : XName)
  | chars (s : Str)
  | other

/-- xml.go `rawToken` -/
def rawToken (e : Env) : Str → Option (Raw × Str)
  | [] => none
  | '<' :: '/' :: r =>
    match nsname e r with
    | none => none
    | some (x, r1) => match r1.dropWhile isWhite with | '>' :: r2 => some (.stop x, r2) | _ => none
  | '<' :: '?' :: r =>
    match name e r with
    | none => none
    | some (t, r1) =>
      match instEnd '\x00' (r1.dropWhile isWhite) with
      | none => none
      | some (d, r2) =>
        if t = "xml".toList ∧ e.declOk (d.take (d.length - 1)) = false then none else some (.other, r2)
  | '<' :: '!' :: '-' :: '-' :: r => (commentEnd '\x00' '\x00' r).map fun r1 => (.other, r1)
  | '<' :: '!' :: '-' :: _ => none
  | '<' :: '!' :: '[' :: 'C' :: 'D' :: 'A' :: 'T' :: 'A' :: '[' :: r => (text e none true r).map fun p => (.chars p.1, p.2)
  | '<' :: '!' :: '[' :: _ => none
  | '<' :: '!' :: _ :: r => (directiveEnd (r.length + 1) none 0 r).map fun r1 => (.other, r1)
  | '<' :: r =>
    match nsname e r with
    | none => none
    | some (x, r1) => (attributes e (r1.length + 1) r1).map fun p => (.start x p.1 p.2.1, p.2.2)
  | s => (text e none false s).map fun p => (.chars p.1, p.2)

/-- xml.go `xmlURL` -/
def xmlURL : String := "http://www.w3.org/XML/1998/namespace"

/-- xml.go `Token`: the declarations of a start tag. -/
def declare (ns : GoMap String String) : List (XName × Str) → GoMap String String
  | [] => ns
  | (x, v) :: l =>
    let ns := if x.space = "xmlns" then mapSet ns x.loc (String.ofList v) else ns
    let ns := if x.space = "" ∧ x.loc = "xmlns" then mapSet ns "" (String.ofList v) else ns
    declare ns l

/-- xml.go `translate` -/
def translate (ns : GoMap String String) (elem : Bool) (x : XName) : XName :=
  if x.space = "xmlns" then x
  else if x.space = "" ∧ elem = false then x
  else if x.space = "" ∧ x.loc = "xmlns" then x
  else
    let space := if x.space = "xml" then xmlURL else x.space
    match mapGet ns space with
    | some u => ⟨u, x.loc⟩
    | none => ⟨space, x.loc⟩

/-- The attributes as delivered. -/
def attrsOf (ns : GoMap String String) (l : List (XName × Str)) : List Attr :=
  l.map fun p => ⟨translate ns false p.1, String.ofList p.2⟩

/-- The content of an open element up to its end tag: text, elements, what is left before the end tag, the name in the end
tag, what is left after it. This is `Token` (name spaces, matching of tags: `pushElement`, `popElement`) with the recursion of
read.go `unmarshal` and `Skip`. -/
def content (e : Env) : Nat → GoMap String String → Str → Option (Str × List Xml × Str × XName × Str)
  | 0, _, _ => none
  | n + 1, ns, s =>
    match rawToken e s with
    | none => none
    | some (.stop x, r) => some ([], [], s, x, r)
    | some (.chars v, r) => (content e n ns r).map fun p => (v ++ p.1, p.2)
    | some (.other, r) => content e n ns r
    | some (.start x l true, r) =>
      (content e n ns r).map fun p =>
        (p.1, Xml.mk (translate (declare ns l) true x) (attrsOf (declare ns l) l) "" "" [] :: p.2.1, p.2.2)
    | some (.start x l false, r) =>
      match content e n (declare ns l) r with
      | none => none
      | some (cs, ks, r1, y, r2) =>
        if y = x then
          (content e n ns r2).map fun p =>
            (p.1, Xml.mk (translate (declare ns l) true x) (attrsOf (declare ns l) l) (String.ofList cs)
              (String.ofList (r.take (r.length - r1.length))) ks :: p.2.1, p.2.2)
        else none

/-- read.go `unmarshal`, `start == nil`: what precedes the root element is skipped, what follows it is not read. -/
def document (e : Env) : Nat → Str → Option Xml
  | 0, _ => none
  | n + 1, s =>
    match rawToken e s with
    | none => none
    | some (.stop _, _) => none
    | some (.chars _, r) => document e n r
    | some (.other, r) => document e n r
    | some (.start x l true, _) =>
      some (Xml.mk (translate (declare [] l) true x) (attrsOf (declare [] l) l) "" "" [])
    | some (.start x l false, r) =>
      match content e (r.length + 1) (declare [] l) r with
      | none => none
      | some (cs, ks, r1, y, _) =>
        if y = x then
          some (Xml.mk (translate (declare [] l) true x) (attrsOf (declare [] l) l) (String.ofList cs)
            (String.ofList (r.take (r.length - r1.length))) ks)
        else none

/-- `strings.Index` -/
def index (p : Str) : Str → Option Nat
  | [] => if p = [] then some 0 else none
  | c :: s => if p <+: c :: s then some 0 else (index p s).map (· + 1)

/-- xml.go `procInst`, the loop: what follows the quote after the first `param=` that is followed by one, and the quote. -/
def paramStart (param : Str) : Nat → Str → Option (Char × Str)
  | 0, _ => none
  | n + 1, s =>
    match index param s with
    | none => none
    | some k =>
      match s.drop (k + param.length) with
      | [] => none
      | c :: r => if c = '\'' ∨ c = '"' then some (c, r) else paramStart param n r

/-- xml.go `procInst`: the value of a pseudo attribute, empty if there is none. -/
def procInst (param s : Str) : Str :=
  match paramStart (param ++ ['=']) (s.length + 1) s with
  | none => []
  | some (q, r) => if q ∈ r then r.takeWhile (· ≠ q) else []

/-- xml.go `rawToken`, after `procInst("version", content)`: whether an XML declaration is accepted by a decoder whose
`CharsetReader` knows the encodings `known`. -/
def declAccepted (known : Str → Bool) (d : Str) : Bool :=
  let ver := procInst "version".toList d
  let enc := procInst "encoding".toList d
  (ver = [] || ver = "1.0".toList) && (enc = [] || enc.map Char.toLower = "utf-8".toList || known enc)

/-- The tree of a file. -/
def parse (e : Env) (s : Str) : Option Xml := document e (s.length + 1) s

/-- The tokens that `Token` delivers one after the other until it fails (pkg/hydratables/instance.go:346-350); `st` are the
open elements with the name spaces outside. -/
def stream (e : Env) : Nat → GoMap String String → List (XName × GoMap String String) → Str → Instance.Stream
  | 0, _, _, _ => ⟨[], false⟩
  | _ + 1, _, st, [] => ⟨[], st.isEmpty⟩
  | n + 1, ns, st, s =>
    match rawToken e s with
    | none => ⟨[], false⟩
    | some (.chars v, r) => let t := stream e n ns st r; ⟨.text (String.ofList v) :: t.toks, t.eof⟩
    | some (.other, r) => let t := stream e n ns st r; ⟨.other :: t.toks, t.eof⟩
    | some (.start x l true, r) =>
      let y := translate (declare ns l) true x
      let t := stream e n ns st r
      ⟨.start y :: .stop y :: t.toks, t.eof⟩
    | some (.start x l false, r) =>
      let t := stream e n (declare ns l) ((x, ns) :: st) r
      ⟨.start (translate (declare ns l) true x) :: t.toks, t.eof⟩
    | some (.stop x, r) =>
      match st with
      | [] => ⟨[], false⟩
      | (y, ns') :: st' =>
        if x = y then let t := stream e n ns' st' r; ⟨.stop (translate ns true x) :: t.toks, t.eof⟩ else ⟨[], false⟩

/-- pkg/hydratables/instance.go:333-334 -/
def tokens (e : Env) (inner : String) : Instance.Stream := stream e (inner.length + 1) [] [] inner.toList

end Telefacts.XmlText
