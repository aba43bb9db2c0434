import Verif.Model.Attr
/-!
# pkg/hydratables/document.go: inline documents

Each inline fact is handled by its own goroutine. A goroutine takes two atomic steps: it reads the shared
error variable, then does its work; the two map writes are protected by a mutex and form one step.
Simplified: the unsynchronised accesses to the error variable are atomic.
-/
namespace Telefacts.Document

/-- pkg/attr/attr.go:19-26 `FindXpathAttr` -/
def findXpathAttr : List XpathAttr → String → Option XpathAttr
  | [], _ => none
  | a :: as, n => if a.name.loc = n then some a else findXpathAttr as n

/-- The attributes of an inline fact element. -/
abbrev InlineFact := List XpathAttr

/-- document.go:38-47 and 65-74: the work of one goroutine up to the writes. A nil attribute panics when its
value is read. -/
def work (np : NameProvider) (f : InlineFact) : Res (String × XName × String) :=
  match findXpathAttr f "name" with
  | none => .panic
  | some name =>
    match np.provideXmlName name.value with
    | .panic => .panic
    | .err m => .err m
    | .ok x =>
      match findXpathAttr f "contextRef" with
      | none => .panic
      | some ctx => .ok (name.value, x, ctx.value)

/-- Program counter of a goroutine. -/
inductive Pc where
  | start
  | checked
  | finished
deriving DecidableEq, Repr

/-- document.go:12-15 -/
structure Doc where
  names : GoMap String XName
  ctxs : GoMap String Bool
deriving DecidableEq, Repr

/-- Shared state of a group of goroutines. -/
structure St where
  threads : List (InlineFact × Pc)
  goErr : Option String
  crashed : Bool
  doc : Doc
deriving DecidableEq, Repr

/-- document.go:33-49, 60-76: the next step of goroutine `i`. After a panic nothing happens any more. -/
def step (np : NameProvider) (st : St) (i : Nat) : St :=
  if st.crashed then st
  else match st.threads[i]? with
    | none => st
    | some (_, .finished) => st
    | some (f, .start) =>
      { st with threads := st.threads.set i (f, if st.goErr.isSome then .finished else .checked) }
    | some (f, .checked) =>
      match work np f with
      | .panic => { st with crashed := true }
      | .err m => { st with threads := st.threads.set i (f, .finished), goErr := some m }
      | .ok (n, x, c) => { st with
          threads := st.threads.set i (f, .finished)
          doc := ⟨mapSet st.doc.names n x, mapSet st.doc.ctxs c true⟩ }

/-- The goroutines of one group take steps in the order `sched`. -/
def runGroup (np : NameProvider) (facts : List InlineFact) (doc : Doc) (sched : List Nat) : St :=
  sched.foldl (step np) ⟨facts.map fun f => (f, .start), none, false, doc⟩

/-- The group has come to an end: all goroutines are done or the program has panicked. -/
def Ended (st : St) : Prop := st.crashed = true ∨ ∀ t ∈ st.threads, t.2 = .finished

/-- document.go:51-54, 78-81: what happens after `wg.Wait()`. -/
def afterGroup (st : St) : Res Doc :=
  if st.crashed then .panic
  else match st.goErr with
    | some m => .err m
    | none => .ok st.doc

/-- document.go:17-86 `HydrateDocument` for a document with the given html attributes. -/
def hydrateDocument (html : List XpathAttr) (nonNumerics nonFractions : List InlineFact)
    (sched₁ sched₂ : List Nat) : Res Doc :=
  match newNameProvider html with
  | .panic => .panic
  | .err m => .err m
  | .ok np =>
    match afterGroup (runGroup np nonNumerics ⟨[], []⟩ sched₁) with
    | .panic => .panic
    | .err m => .err m
    | .ok doc => afterGroup (runGroup np nonFractions doc sched₂)

end Telefacts.Document
