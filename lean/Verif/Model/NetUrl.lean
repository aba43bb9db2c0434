import Verif.Model.Url
import Verif.Model.Json
/-!
# pkg/attr/url.go: IsValidUrl, and net/url

`url.Parse` and `url.ParseRequestURI` of Go 1.22 are modelled from their source as known. Go strings are byte sequences; here a byte
is the character with its number. What is not used (queries, user information, raw forms) is not kept.
-/
namespace Telefacts.Url
open Telefacts.Json (unhex)

/-- net/url `stringContainsCTLByte` -/
def ctl (c : Char) : Bool := c.toNat < 32 || c.toNat == 127

/-- ASCII letters. -/
def letter (c : Char) : Bool := (97 ≤ c.toNat && c.toNat ≤ 122) || (65 ≤ c.toNat && c.toNat ≤ 90)

/-- ASCII digits. -/
def digit (c : Char) : Bool := 48 ≤ c.toNat && c.toNat ≤ 57

/-- The characters of schemes in `getScheme`. -/
def schemeChar (c : Char) : Bool := letter c || digit c || c == '+' || c == '-' || c == '.'

/-- `strings.ToLower` on schemes. -/
def lower (c : Char) : Char := if 65 ≤ c.toNat ∧ c.toNat ≤ 90 then Char.ofNat (c.toNat + 32) else c

/-- net/url `getScheme`: scheme and rest; `none` is an error. -/
def getScheme (s : Str) : Option (Str × Str) :=
  match s.dropWhile schemeChar with
  | c :: r =>
    if c = ':' then
      match s.takeWhile schemeChar with
      | [] => none
      | x :: n => if letter x then some (x :: n, r) else some ([], s)
    else some ([], s)
  | [] => some ([], s)

/-- What is unescaped (net/url `encoding`); fragments are unescaped like paths. -/
inductive Mode where
  | path | user | host | zone
deriving DecidableEq

/-- net/url `shouldEscape`: ASCII characters that may stand in a host unescaped. -/
def hostChar (c : Char) : Bool := letter c || digit c || c ∈ "-_.~!$&'()*+,;=:[]<>\"".toList

/-- net/url `unescape` -/
def unescape (m : Mode) : Str → Option Str
  | [] => some []
  | c :: r =>
    if c = '%' then
      match r with
      | x :: y :: r' =>
        match unhex x, unhex y with
        | some a, some b =>
          if m = .host ∧ a < 8 ∧ ¬(x = '2' ∧ y = '5') then none
          else if m = .zone ∧ ¬(x = '2' ∧ y = '5') ∧ a * 16 + b ≠ 32 ∧ hostChar (Char.ofNat (a * 16 + b)) = false then none
          else (unescape m r').map (Char.ofNat (a * 16 + b) :: ·)
        | _, _ => none
      | _ => none
    else if (m = .host ∨ m = .zone) ∧ c.toNat < 128 ∧ hostChar c = false then none
    else (unescape m r).map (c :: ·)

/-- Around the last occurrence (`strings.LastIndex`). -/
def splitLast (c : Char) : Str → Option (Str × Str)
  | [] => none
  | x :: r =>
    match splitLast c r with
    | some (a, b) => some (x :: a, b)
    | none => if x = c then some ([], r) else none

/-- Before and from the first occurrence of `%25` (`strings.Index`). -/
def splitZone : Str → Option (Str × Str)
  | [] => none
  | c :: r =>
    if ['%', '2', '5'].isPrefixOf (c :: r) then some ([], c :: r)
    else (splitZone r).map fun p => (c :: p.1, p.2)

/-- net/url `validOptionalPort` -/
def validPort : Str → Bool
  | [] => true
  | c :: r => c == ':' && r.all digit

/-- net/url `parseHost` -/
def parseHost (h : Str) : Option Str :=
  if h.head? = some '[' then
    match splitLast ']' h with
    | none => none
    | some (a, port) =>
      if validPort port then
        match splitZone a with
        | some (h1, h2) =>
          match unescape .host h1, unescape .zone h2, unescape .host (']' :: port) with
          | some d1, some d2, some d3 => some (d1 ++ d2 ++ d3)
          | _, _, _ => none
        | none => unescape .host h
      else none
  else
    match splitLast ':' h with
    | some (_, p) => if p.all digit then unescape .host h else none
    | none => unescape .host h

/-- net/url `validUserinfo` -/
def userChar (c : Char) : Bool := letter c || digit c || c ∈ "-._:~!$&'()*+,;=%@".toList

/-- net/url `parseAuthority`: the host. -/
def parseAuthority (a : Str) : Option Str :=
  match splitLast '@' a with
  | none => parseHost a
  | some (user, h) =>
    match parseHost h with
    | none => none
    | some host =>
      if user.all userChar = true ∧ (unescape .user (user.takeWhile (· ≠ ':'))).isSome ∧
          (unescape .user (user.dropWhile (· ≠ ':')).tail).isSome then some host else none

/-- The fields of a `URL` that are used. -/
structure Raw where
  scheme : Str
  host : Str
  path : Str
deriving DecidableEq, Repr

/-- net/url `parse`. Both ways of dropping the query leave what is before the first question mark. -/
def parseRaw (viaRequest : Bool) (s : Str) : Option Raw :=
  if s.any ctl then none
  else if s = [] ∧ viaRequest then none
  else if s = ['*'] then some ⟨[], [], ['*']⟩
  else
    match getScheme s with
    | none => none
    | some (sch, rest) =>
      let sch := sch.map lower
      let rest := rest.takeWhile (· ≠ '?')
      if rest.head? ≠ some '/' ∧ sch ≠ [] then some ⟨sch, [], []⟩
      else if rest.head? ≠ some '/' ∧ (viaRequest ∨ ':' ∈ rest.takeWhile (· ≠ '/')) then none
      else if (sch ≠ [] ∨ (viaRequest = false ∧ ['/', '/', '/'].isPrefixOf rest = false)) ∧ ['/', '/'].isPrefixOf rest then
        match parseAuthority ((rest.drop 2).takeWhile (· ≠ '/')) with
        | none => none
        | some host => (unescape .path ((rest.drop 2).dropWhile (· ≠ '/'))).map fun p => ⟨sch, host, p⟩
      else (unescape .path rest).map fun p => ⟨sch, [], p⟩

/-- net/url `Parse` -/
def parseUrl (s : Str) : Option Raw :=
  match parseRaw false (s.takeWhile (· ≠ '#')) with
  | none => none
  | some u => if (unescape .path (s.dropWhile (· ≠ '#')).tail).isSome then some u else none

/-- pkg/attr/url.go:5-17 `IsValidUrl` -/
def isValidUrl (s : Str) : Bool :=
  (parseRaw true s).isSome &&
    match parseUrl s with
    | none => false
    | some u => u.scheme ≠ [] && u.host ≠ []

/-- net/url `Hostname` -/
def hostname (h : Str) : Str :=
  let h := match splitLast ':' h with
    | some (a, p) => if p.all digit then a else h
    | none => h
  if h.head? = some '[' ∧ h.getLast? = some ']' then h.tail.dropLast else h

/-- `url.Parse` as used at pkg/serializables/global.go:28-42. -/
def urlParse (s : Str) : Option Parsed := (parseUrl s).map fun u => ⟨u.scheme, hostname u.host, u.path⟩

end Telefacts.Url
