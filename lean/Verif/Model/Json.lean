import Verif.Model.Fnv
/-!
# encoding/json (Go 1.22)

`json.Marshal` as called at pkg/renderables/catalog.go:45, expressable.go:66, renderable.go:123 and, by an `Encoder`,
pkg/serializables/underscore.go:62; `json.Unmarshal` as called at underscore.go:24 and pkg/serializables/global.go:81. The library
is modelled from its documentation and source as known. Texts are lists of characters (valid UTF-8). A number is kept as it is
written, which is what the decoder does when it only skips it. The escape of a lone surrogate, which Go decodes as U+FFFD, is an
error here.
-/
namespace Telefacts.Json

/-- The values that the marshalled types are made of. -/
inductive Json where
  | null
  | bool (b : Bool)
  | num (lit : List Char)
  | str (s : String)
  | arr (l : List Json)
  | obj (l : List (String × Json))

/-- encoding/json/encode.go `appendString` with `escapeHTML`: one character. -/
def escape (c : Char) : List Char :=
  if c = '"' ∨ c = '\\' then ['\\', c]
  else if c.toNat = 8 then ['\\', 'b']
  else if c.toNat = 12 then ['\\', 'f']
  else if c.toNat = 10 then ['\\', 'n']
  else if c.toNat = 13 then ['\\', 'r']
  else if c.toNat = 9 then ['\\', 't']
  else if c.toNat < 32 ∨ c = '<' ∨ c = '>' ∨ c = '&' then
    ['\\', 'u', '0', '0', hexDigit (c.toNat / 16), hexDigit (c.toNat % 16)]
  else if c.toNat = 0x2028 ∨ c.toNat = 0x2029 then ['\\', 'u', '2', '0', '2', hexDigit (c.toNat % 16)]
  else [c]

/-- encode.go `appendString` -/
def quote (s : String) : List Char := '"' :: s.toList.flatMap escape ++ ['"']

/-- strconv `AppendInt`, base 10, of a natural number. -/
def decimal (n : Nat) : List Char :=
  if n < 10 then [Char.ofNat (48 + n)] else decimal (n / 10) ++ [Char.ofNat (48 + n % 10)]

mutual
/-- encode.go: `boolEncoder`, `intEncoder`, `stringEncoder`, `arrayEncoder.encode`, `structEncoder.encode`,
`mapEncoder.encode`; nil pointers, slices and maps are `null`. -/
def text : Json → List Char
  | .null => "null".toList
  | .bool true => "true".toList
  | .bool false => "false".toList
  | .num lit => lit
  | .str s => quote s
  | .arr l => '[' :: items l ++ [']']
  | .obj l => '{' :: members l ++ ['}']

/-- The elements of an array, with commas. -/
def items : List Json → List Char
  | [] => []
  | v :: rest => text v ++ (if rest.isEmpty then [] else ',' :: items rest)

/-- The members of an object, with commas. -/
def members : List (String × Json) → List Char
  | [] => []
  | (k, v) :: rest => quote k ++ ':' :: text v ++ (if rest.isEmpty then [] else ',' :: members rest)
end

/-! ## Reading (scanner.go, decode.go) -/

/-- scanner.go `isSpace` -/
def isBlank (c : Char) : Bool := c = ' ' || c = '\t' || c = '\n' || c = '\r'

/-- decode.go `scanWhile(scanSkipSpace)` -/
def skip (cs : List Char) : List Char := cs.dropWhile isBlank

/-- decode.go `getu4`: one hexadecimal digit. -/
def unhex (c : Char) : Option Nat :=
  if 48 ≤ c.toNat ∧ c.toNat ≤ 57 then some (c.toNat - 48)
  else if 97 ≤ c.toNat ∧ c.toNat ≤ 102 then some (c.toNat - 87)
  else if 65 ≤ c.toNat ∧ c.toNat ≤ 70 then some (c.toNat - 55)
  else none

/-- decode.go `getu4` -/
def getu4 : List Char → Option (Nat × List Char)
  | '\\' :: 'u' :: a :: b :: c :: d :: r =>
    match unhex a, unhex b, unhex c, unhex d with
    | some a, some b, some c, some d => some (((a * 16 + b) * 16 + c) * 16 + d, r)
    | _, _, _, _ => none
  | _ => none

/-- decode.go `unquoteBytes`: the character after a backslash other than `u`. -/
def unescape (c : Char) : Option Char :=
  if c = '"' ∨ c = '\\' ∨ c = '/' then some c
  else if c = 'b' then some (Char.ofNat 8)
  else if c = 'f' then some (Char.ofNat 12)
  else if c = 'n' then some '\n'
  else if c = 'r' then some '\r'
  else if c = 't' then some '\t'
  else none

/-- decode.go `unquoteBytes`: the next character of a string. -/
def piece : List Char → Option (Char × List Char)
  | '\\' :: c :: r =>
    if c = 'u' then
      match getu4 ('\\' :: c :: r) with
      | none => none
      | some (n, r) =>
        if n < 0xD800 ∨ 0xE000 ≤ n then some (Char.ofNat n, r)
        else
          match getu4 r with
          | none => none
          | some (l, r) =>
            if n < 0xDC00 ∧ 0xDC00 ≤ l ∧ l < 0xE000 then
              some (Char.ofNat (0x10000 + (n - 0xD800) * 0x400 + (l - 0xDC00)), r)
            else none
    else (unescape c).map fun c => (c, r)
  | c :: r => if c = '"' ∨ c = '\\' ∨ c.toNat < 32 then none else some (c, r)
  | [] => none

/-- The characters of a string after its opening quotation mark (`n`: bound of their number). -/
def string : Nat → List Char → Option (List Char × List Char)
  | 0, _ => none
  | n + 1, cs =>
    if cs.head? = some '"' then some ([], cs.tail)
    else
      match piece cs with
      | none => none
      | some (c, r) => (string n r).map fun p => (c :: p.1, p.2)

/-- A string. -/
def unquote (cs : List Char) : Option (String × List Char) :=
  if cs.head? = some '"' then (string cs.length cs.tail).map fun p => (String.ofList p.1, p.2) else none

/-- The characters of numbers. -/
def numeric (c : Char) : Bool := (48 ≤ c.toNat && c.toNat ≤ 57) || c = '-' || c = '+' || c = '.' || c = 'e' || c = 'E'

/-- ASCII digits. -/
def isDigit (c : Char) : Bool := 48 ≤ c.toNat && c.toNat ≤ 57

/-- scanner.go `stateE`, `stateESign`, `stateE0`: an optional exponent. -/
def isExp : List Char → Bool
  | [] => true
  | c :: r => (c = 'e' || c = 'E') &&
    (let ds := if r.head? = some '+' ∨ r.head? = some '-' then r.tail else r; !ds.isEmpty && ds.all isDigit)

/-- scanner.go `stateDot`, `stateDot0`: an optional fraction and an optional exponent. -/
def isFrac (cs : List Char) : Bool :=
  if cs.head? = some '.' then !(cs.tail.takeWhile isDigit).isEmpty && isExp (cs.tail.dropWhile isDigit) else isExp cs

/-- scanner.go `stateBeginValue`, `stateNeg`, `state0`, `state1`: is it a number? -/
def isNumber (cs : List Char) : Bool :=
  let cs := if cs.head? = some '-' then cs.tail else cs
  let ds := cs.takeWhile isDigit
  !ds.isEmpty && (ds.head? != some '0' || ds == ['0']) && isFrac (cs.dropWhile isDigit)

/-- The rest after a literal. -/
def strip (w cs : List Char) : Option (List Char) := if w.isPrefixOf cs then some (cs.drop w.length) else none

mutual
/-- decode.go `valueInterface` and the like: the value at the front (`n`: bound of the depth). -/
def value : Nat → List Char → Option (Json × List Char)
  | 0, _ => none
  | _ + 1, [] => none
  | n + 1, c :: r =>
    if c = '"' then (unquote (c :: r)).map fun p => (.str p.1, p.2)
    else if c = '[' then
      if (skip r).head? = some ']' then some (.arr [], (skip r).tail) else (elements n r).map fun p => (.arr p.1, p.2)
    else if c = '{' then
      if (skip r).head? = some '}' then some (.obj [], (skip r).tail) else (pairs n r).map fun p => (.obj p.1, p.2)
    else if c = 'n' then (strip "null".toList (c :: r)).map fun r => (.null, r)
    else if c = 't' then (strip "true".toList (c :: r)).map fun r => (.bool true, r)
    else if c = 'f' then (strip "false".toList (c :: r)).map fun r => (.bool false, r)
    else if isNumber ((c :: r).takeWhile numeric) then some (.num ((c :: r).takeWhile numeric), (c :: r).dropWhile numeric)
    else none

/-- decode.go `array`, after the opening bracket. -/
def elements : Nat → List Char → Option (List Json × List Char)
  | 0, _ => none
  | n + 1, cs =>
    match value n (skip cs) with
    | none => none
    | some (v, r) =>
      if (skip r).head? = some ',' then (elements n (skip r).tail).map fun p => (v :: p.1, p.2)
      else if (skip r).head? = some ']' then some ([v], (skip r).tail)
      else none

/-- decode.go `object`, after the opening brace. -/
def pairs : Nat → List Char → Option (List (String × Json) × List Char)
  | 0, _ => none
  | n + 1, cs =>
    match unquote (skip cs) with
    | none => none
    | some (k, r) =>
      if (skip r).head? = some ':' then
        match value n (skip (skip r).tail) with
        | none => none
        | some (v, r) =>
          if (skip r).head? = some ',' then (pairs n (skip r).tail).map fun p => ((k, v) :: p.1, p.2)
          else if (skip r).head? = some '}' then some ([(k, v)], (skip r).tail)
          else none
      else none
end

/-- scanner.go `checkValid` together with the value read. -/
def parse (cs : List Char) : Option Json :=
  match value (cs.length + 1) (skip cs) with
  | none => none
  | some (v, r) => if (skip r).isEmpty then some v else none

end Telefacts.Json
