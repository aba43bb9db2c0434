import Verif.Model.Cache
import Verif.Spec.Path
/-!
# Specification of the cache layer

`Direct` is what a call could answer if there were no cache. It does not use the request programs.
-/
namespace Telefacts.Cache
variable {H B S : Type}

/-- The folder a call is about. -/
def folderOf : Req → Option String
  | .catalog id => some id
  | .renderable id _ => some id
  | .express id _ _ => some id
  | _ => none

/-- The computation a call asks for, on a hydrated folder. A renderable request for the entry
document (`.xhtml`/`.htm`) is answered with the document. `none` is a panic. -/
def Computes (be : Backend H B S) : Req → H → Option (Option B × Option String) → Prop
  | .catalog _, h, x => be.catalog h x
  | .renderable _ hash, h, x =>
    ((EndsIn hash ".xhtml" ∨ EndsIn hash ".htm") ∧ be.entryName h = hash ∧ x = (be.docBytes h).map (fun d => (some d, none))) ∨
    (¬ ((EndsIn hash ".xhtml" ∨ EndsIn hash ".htm") ∧ be.entryName h = hash) ∧ be.renderable hash h x)
  | .express _ name cr, h, x => be.express name cr h x
  | _, _, _ => False

/-- Possible answers without any caching. -/
inductive Direct (be : Backend H B S) : Req → Out H B S → Prop
  | undiscovered (r id m) : folderOf r = some id → be.discover id (some m) →
      Direct be r (.ret (.bytes none) (some ("failed to discover folder, " ++ m)))
  | hydratePanic (r id) : folderOf r = some id → be.discover id none → be.hydrate id none →
      Direct be r .panic
  | unhydrated (r id h m) : folderOf r = some id → be.discover id none →
      be.hydrate id (some (h, some m)) → Direct be r (.ret (.bytes none) (some m))
  | computePanic (r id h) : folderOf r = some id → be.discover id none →
      be.hydrate id (some (some h, none)) → Computes be r h none → Direct be r .panic
  | computed (r id h b e) : folderOf r = some id → be.discover id none →
      be.hydrate id (some (some h, none)) → Computes be r h (some (b, e)) →
      Direct be r (.ret (.bytes b) e)
  | schema (url s) : be.schema url (some s) → Direct be (.schema url) (.ret (.schema s) none)
  | schemaErr (url) : be.schema url none → Direct be (.schema url) (.ret (.bytes none) (some "error"))
  | utr (s) : be.utr (some s) → Direct be .utr (.ret (.utr s) none)
  | utrErr : be.utr none → Direct be .utr (.ret (.bytes none) (some "error"))
  | names (s) : be.names (some s) → Direct be .names (.ret (.names s) none)
  | namesErr : be.names none → Direct be .names (.ret (.bytes none) (some "error"))

/-- The call succeeded. -/
def Succeeds : Out H B S → Prop
  | .ret _ none => True
  | _ => False

/-- Folder ids as created by `NewFolder` (UUID text): a dash, no slash. -/
def IdOk (id : String) : Prop := '-' ∈ id.toList ∧ '/' ∉ id.toList

/-- Calls as they reach the cache in normal operation: UUID-like ids, hashes without slash (the
router's `{hash}` matches one non-empty path segment), context ids without colon (they are XML names without
prefix), absolute URLs other than the registry's. -/
def ReqOk : Req → Prop
  | .catalog id => IdOk id
  | .renderable id hash => IdOk id ∧ hash ≠ "" ∧ '/' ∉ hash.toList
  | .express id _ c => IdOk id ∧ ':' ∉ c.toList
  | .schema url => 2 ≤ url.toList.count '/' ∧ url ≠ "http://www.xbrl.org/utr/utr.xml"
  | .utr => True
  | .names => True

/-- A fact of a folder as a path. -/
def factPath (id n c : String) : String := id ++ "/facts/" ++ n ++ ":" ++ c

/-- A set of calls in normal operation; the hash has no collision among the facts that are asked for. -/
structure Normal (allowed : Req → Prop) : Prop where
  ok : ∀ r, allowed r → ReqOk r
  express : ∀ id n c id' n' c', allowed (.express id n c) → allowed (.express id' n' c') →
    fnvHex (factPath id n c) = fnvHex (factPath id' n' c') → factPath id n c = factPath id' n' c'

/-- Where the answer of a call is stored. -/
def resultKey : Req → String
  | .catalog id => id ++ "/"
  | .renderable id hash => id ++ "/" ++ hash
  | .express id n c => fnvHex (factPath id n c)
  | .schema url => url
  | .utr => "http://www.xbrl.org/utr/utr.xml"
  | .names => "names.json"

/-- Some execution of the program reads or writes the key as a value of the kind. -/
inductive Uses : Prog H B S → String → Kind → Prop
  | reads (l k kind hit miss) : Uses (.get l k kind hit miss) k kind
  | hit (l k' kind' hit miss v k kind) : Uses (hit v) k kind → Uses (.get l k' kind' hit miss) k kind
  | miss (l k' kind' hit miss k kind) : Uses miss k kind → Uses (.get l k' kind' hit miss) k kind
  | writes (l k v next) : Uses (.spawn l k v next) k v.kind
  | next (l k' v next k kind) : Uses next k kind → Uses (.spawn l k' v next) k kind
  | err (possible f x k kind) : possible x → Uses (f x) k kind → Uses (.chooseErr possible f) k kind
  | hyd (possible f x k kind) : possible x → Uses (f x) k kind → Uses (.chooseHyd possible f) k kind
  | bytes (possible f x k kind) : possible x → Uses (f x) k kind → Uses (.chooseBytes possible f) k kind
  | global (possible f x k kind) : possible x → Uses (f x) k kind → Uses (.chooseGlobal possible f) k kind

end Telefacts.Cache
