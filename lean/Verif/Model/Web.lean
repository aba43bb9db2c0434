import Verif.Model.Prelude
/-!
# internal/web/web.go

Strings are byte sequences here, because percent-encoding is defined on bytes. `net/http` and `net/url`
are modelled from their documentation (Go standard library, not in /repo).
-/
namespace Telefacts.Web

/-- A byte. -/
abbrev Byte := Fin 256

/-- A Go string. -/
abbrev Bytes := List Byte

/-- The bytes of an ASCII literal. -/
def lit (s : String) : Bytes := s.toList.map fun c => ⟨c.toNat % 256, Nat.mod_lt _ (by decide)⟩

/-! ## net/url -/

/-- Value of a hexadecimal digit, `none` when it is not one (net/url `ishex`, `unhex`). -/
def unhex (b : Byte) : Option Nat :=
  if 48 ≤ b.val ∧ b.val ≤ 57 then some (b.val - 48)
  else if 97 ≤ b.val ∧ b.val ≤ 102 then some (b.val - 87)
  else if 65 ≤ b.val ∧ b.val ≤ 70 then some (b.val - 55)
  else none

/-- net/url `QueryUnescape`: `+` is a space, `%XX` a byte, a `%` without two hex digits an error. -/
def queryUnescape : Bytes → Option Bytes
  | [] => some []
  | b :: r =>
    if b.val = 37 then
      match r with
      | x :: y :: r' =>
        match unhex x, unhex y with
        | some hi, some lo =>
          (queryUnescape r').map (⟨(hi * 16 + lo) % 256, Nat.mod_lt _ (by decide)⟩ :: ·)
        | _, _ => none
      | _ => none
    else (queryUnescape r).map ((if b.val = 43 then 32 else b) :: ·)

/-- Split at every occurrence of a byte (the `&` loop of net/url `parseQuery`). -/
def splitOn (c : Byte) : Bytes → List Bytes
  | [] => [[]]
  | b :: r =>
    if b = c then [] :: splitOn c r
    else match splitOn c r with
      | [] => [[b]]
      | p :: ps => (b :: p) :: ps

/-- `strings.Cut` at the first occurrence; absent: the whole text and the empty text. -/
def cutAt (c : Byte) : Bytes → Bytes × Bytes
  | [] => ([], [])
  | b :: r => if b = c then ([], r) else ((b :: (cutAt c r).1), (cutAt c r).2)

/-- One `key=value` part of net/url `parseQuery`: a `;` or a bad escape is an error, an empty part is
skipped. -/
def parsePart (p : Bytes) : Option (List (Bytes × Bytes)) :=
  if (59 : Byte) ∈ p then none
  else if p = [] then some []
  else match queryUnescape (cutAt 61 p).1, queryUnescape (cutAt 61 p).2 with
    | some k, some v => some [(k, v)]
    | _, _ => none

/-- net/url `ParseQuery`: the pairs in order, or an error if any part has one. -/
def parseQuery (q : Bytes) : Option (List (Bytes × Bytes)) :=
  ((splitOn 38 q).mapM parsePart).map List.flatten

/-- `Values.Get`: the first value of the key, or the empty text. -/
def getParam (vs : List (Bytes × Bytes)) (k : Bytes) : Bytes :=
  match vs.find? (fun p => p.1 = k) with
  | some p => p.2
  | none => []

/-! ## net/http ResponseWriter -/

/-- State of a response: the header map, what was sent (status and header snapshot), and the body. -/
structure Writer where
  header : List (String × String)
  sent : Option (Nat × List (String × String))
  body : Bytes
deriving DecidableEq, Repr

/-- A new response. -/
def Writer.new : Writer := ⟨[], none, []⟩

/-- `w.Header().Set(k, v)`: changes the header map only. -/
def Writer.set (w : Writer) (k v : String) : Writer :=
  { w with header := (k, v) :: w.header.filter (fun p => p.1 ≠ k) }

/-- `w.WriteHeader(status)`: the first call sends the status with a snapshot of the header map. -/
def Writer.writeHeader (w : Writer) (status : Nat) : Writer :=
  match w.sent with
  | none => { w with sent := some (status, w.header) }
  | some _ => w

/-- `w.Write(data)`: sends status 200 first if nothing was sent. -/
def Writer.write (w : Writer) (data : Bytes) : Writer :=
  { w.writeHeader 200 with body := w.body ++ data }

/-- `http.Error(w, msg, code)`. The text of the message is abstracted. -/
def Writer.error (w : Writer) (msg : Bytes) (code : Nat) : Writer :=
  (((w.set "Content-Type" "text/plain; charset=utf-8").set "X-Content-Type-Options" "nosniff").writeHeader
    code).write (msg ++ [10])

/-- What the client sees: status, Content-Type, body. Without a Content-Type in the snapshot a
non-empty body is sniffed (`http.DetectContentType`, parameter). -/
def Writer.finish (sniff : Bytes → String) (w : Writer) : Nat × Option String × Bytes :=
  let (status, hdr) := (w.writeHeader 200).sent.getD (200, [])
  let ctype := match hdr.find? (fun p => p.1 = "Content-Type") with
    | some p => some p.2
    | none => if w.body = [] then none else some (sniff w.body)
  (status, ctype, w.body)

/-! ## Handlers -/

/-- The parts of a request used. `id` and `hash` are the mux variables (empty when absent). -/
structure Request where
  method : String
  id : Bytes
  hash : Bytes
  rawQuery : Bytes
deriving DecidableEq, Repr

/-- Result of the cache layer: bytes or an error text. -/
abbrev CacheResult := Except Bytes Bytes

/-- `w.WriteHeader(200); w.Header().Set("Content-Type", "application/json"); w.Write(data)`
(web.go:30-32, 59-61, 97-99). -/
def succeed (data : Bytes) : Writer :=
  ((Writer.new.writeHeader 200).set "Content-Type" "application/json").write data

/-- The end of every handler: `if err != nil { http.Error(.., 500); return }`, then success. -/
def answer : CacheResult → Writer
  | .error e => Writer.new.error (lit "Error: " ++ e) 500
  | .ok data => succeed data

/-- web.go:13-34 `Catalog`. -/
def catalog (cache : Bytes → CacheResult) (r : Request) : Writer :=
  if r.method ≠ "GET" then Writer.new.error (lit "Error: incorrect verb, ") 500
  else if r.id = [] then Writer.new.error (lit "Error: invalid id ''") 400
  else answer (cache r.id)

/-- web.go:36-63 `Renderable`. -/
def renderable (cache : Bytes → Bytes → CacheResult) (r : Request) : Writer :=
  if r.method ≠ "GET" then Writer.new.error (lit "Error: incorrect verb, ") 500
  else if r.id = [] then Writer.new.error (lit "Error: invalid id ''") 400
  else if r.hash = [] then Writer.new.error (lit "Error: invalid hash") 400
  else answer (cache r.id r.hash)

/-- web.go:77-91: the name and contextref looked up, or the status of the error. -/
def factQuery (rawQuery : Bytes) : Except Nat (Bytes × Bytes) :=
  match parseQuery rawQuery with
  | none => .error 500
  | some vs =>
    match queryUnescape (getParam vs (lit "name")) with
    | none => .error 400
    | some name =>
      match queryUnescape (getParam vs (lit "contextref")) with
      | none => .error 400
      | some contextref => .ok (name, contextref)

/-- web.go:65-101 `Expressable`. -/
def expressable (cache : Bytes → Bytes → Bytes → CacheResult) (r : Request) : Writer :=
  if r.method ≠ "GET" then Writer.new.error (lit "Error: incorrect verb, ") 500
  else if r.id = [] then Writer.new.error (lit "Error: invalid id ''") 400
  else match factQuery r.rawQuery with
    | .error code => Writer.new.error (lit "Error: ") code
    | .ok (name, contextref) => answer (cache r.id name contextref)

end Telefacts.Web
