import Verif.Model.Prelude
/-! # pkg/serializables/folder.go: processImages, and encoding/base64 -/
namespace Telefacts.Media

abbrev Byte := Fin 256
abbrev Bytes := List Byte

/-- encoding/base64 `StdEncoding`: the letter of a value below 64. -/
def letter (v : Nat) : Char :=
  "ABCDEFGHIJKLMNOPQRSTUVWXYZabcdefghijklmnopqrstuvwxyz0123456789+/".toList.getD (v % 64) '='

/-- encoding/base64 `Encoding.Encode`, as loop over groups of three bytes and a padded remainder:
`val>>18&0x3F`, `val>>12&0x3F`, `val>>6&0x3F`, `val&0x3F`. -/
def encode : Bytes → List Char
  | a :: b :: c :: rest =>
    let val := a.val * 65536 + b.val * 256 + c.val
    letter (val / 262144) :: letter (val / 4096) :: letter (val / 64) :: letter val :: encode rest
  | [a, b] =>
    let val := a.val * 65536 + b.val * 256
    [letter (val / 262144), letter (val / 4096), letter (val / 64), '=']
  | [a] =>
    let val := a.val * 65536
    [letter (val / 262144), letter (val / 4096), '=', '=']
  | [] => []

/-- net/http `DetectContentType`, restricted to the answers `image/jpeg` and `image/png`: no other signature
starts with the same bytes. -/
def detect (b : Bytes) : String :=
  if [0xFF, 0xD8, 0xFF] <+: b then "image/jpeg"
  else if [0x89, 0x50, 0x4E, 0x47, 0x0D, 0x0A, 0x1A, 0x0A] <+: b then "image/png"
  else "application/octet-stream"

/-- A directory entry; `content = none`: `os.ReadFile` fails. -/
structure Entry where
  name : String
  isDir : Bool
  content : Option Bytes
deriving DecidableEq

/-- folder.go:367-390: one round of the loop. -/
def processEntry (images : GoMap String String) (e : Entry) : GoMap String String :=
  if e.isDir then images
  else match e.content with
    | none => images
    | some b =>
      if detect b = "image/jpeg" then
        mapSet images e.name ("data:image/jpeg;base64," ++ String.ofList (encode b))
      else if detect b = "image/png" then
        mapSet images e.name ("data:image/png;base64," ++ String.ofList (encode b))
      else images

/-- folder.go:361-391 `processImages`; `none`: `os.ReadDir` fails. -/
def processImages : Option (List Entry) → GoMap String String
  | none => []
  | some es => es.foldl processEntry []

end Telefacts.Media
