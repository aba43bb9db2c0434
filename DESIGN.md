# Formal model of ecksbee/telefacts

The subject is the Go program in `/repo`.
The model is written in Lean 4 under `lean/Verif`.
`properties.jsonl` lists the properties, `MANIFEST.json` maps each one to theorems.

## Layout

* `Verif/Model/*`: definitions transcribed from the Go code, function by function.
  Each definition cites the file and lines it models and says where it simplifies.
* `Verif/Spec/*`: small specifications that do not use the model's helper functions.
* `Verif/Proof/*`: helper lemmas.
* `Verif/Props/*`: the property theorems, named `Cnn_...`, each with an `example` showing that
  its hypotheses are met by a concrete non-trivial case.

Theorems named `..._partial` prove a part of the property only.
Theorems named `..._fails` prove, by a concrete witness or for all inputs of a kind, that the code does not have the property as a user would expect it.
Theorems named `..._exact` say for exactly which inputs a property that is false of the code holds (Props/Exactly, Props/ExactRows, Props/ExactUrl, Props/ExactMore, Props/ExactNotes, Props/ExactLangs).

## Modelling conventions

* Go strings are Lean `String` (valid UTF-8 assumed; comparison by code point equals comparison by byte).
* A Go `(value, error)` result is `Res`: `ok`, `err` or `panic`. A nil pointer is `none`.
* A Go map is an association list. The list order stands for the iteration order chosen by the runtime.
  Theorems about results that go through a map quantify over all permutations of that list.
* `sort.SliceStable` is a stable insertion sort proved to be a stable sorting permutation.
  `sort.Strings`/`sort.Slice` are modelled by the same function only where the key is total.
* `float64` is `nan | -inf | +inf | z * 2^-1074` with `z : Int`, which is exact for comparisons and absolute value.
* Goroutines with locks are sequences of atomic writes; theorems quantify over all interleavings.
* Recursion that may not terminate takes fuel; termination is "some fuel suffices".

## Trusted base

* Lean's kernel. Theorems depend on at most the standard axioms `propext`, `Classical.choice`, `Quot.sound`;
  `AXIOMS.md` lists the axioms of every theorem named in `MANIFEST.json`. No axiom is added; there is no `sorry`, `native_decide` or `bv_decide`.
* The transcription from Go to Lean by reading. Nothing was compiled or run.
* No name is bound automatically: `tools/check_autobound.sh` elaborates every module with `autoImplicit` off and prints nothing.
  (It found one: the type of HTML tokens in `Server.Site` was a bound variable, so the theorems about the whole server had been about fewer tokenizers than meant.)
* Parameters (arbitrary functions unless a theorem states a hypothesis on them):
  URL validity and URL parsing (both arbitrary in C08-C12, and modelled after net/url of Go 1.22 in C113-C115), `strconv.ParseFloat` (arbitrary, and modelled on decimal numbers in C143 and C144), XML decoding (arbitrary trees up to C118, the tokenizer of encoding/xml modelled after Go 1.22 in C119-C123), HTML decoding, the file system contents,
  the tree builder `joshuanario/arcs.NewRArc`, number formatting (`digits`), month names (`lctime`), UUID/MD5.
* C124, C125, C133 and C135 put the parts together: `Model/Server.lean` is an instance of the `Backend` of the cache model, `Model/Http.lean` calls the cache from the
  routes. Over-approximated there: every call may choose its own schedules and map orders; the discovery reported by `Discover` and the one `Hydrate` works with
  may be scheduled differently; global lookups may return anything. Simplified: the files and the world outside are constant while the server runs (changes of folders are treated in Model/Keeping.lean for C172 and C173; changes of global files are not), the
  texts of hydration errors are one constant, a Go string from a path that is not UTF-8 is read with replacement characters, and a handler that panics
  sends nothing. Which panics end the whole process is said by Model/Process.lean (C154); trusted there: net/http recovers panics of the goroutine
  that serves a request, and nothing recovers those of other goroutines.

## Not modelled

* HTTP transport (net/http and gorilla/mux 1.8.1 are modelled as far as matching, cleaning of paths and redirects go), the command line,
  FTP/zip utilities, logging.
* golang.org/x/net/html: `html.Parse` and `html.Render` are the parameters `parseHtml` and `renderHtml`; the models start from element trees.
  antchfx/xmlquery is modelled on element trees for the expressions that occur in the code.
* (The JSON of catalogs, folder metadata, names.json, renderables and expressions is modelled: C109-C112, C116-C118.)
* Of encoding/xml: texts are lists of characters, already converted from the declared encoding (invalid UTF-8 and the conversion
  itself are outside); the tables of name characters beyond ASCII and the set of known encodings are parameters. The limit of 10000 on
  the depth of unmarshalled elements is not modelled.
* The `arcs` library: its source is not available, so theorems hold for any tree it returns; C130 (partial) and C132 assume the contract `IsForest`.
  Trees are finite, so a library that returns cyclic nodes (and a traversal that does not end) is outside.
* Of big.Float (C156): numbers are rationals without overflow of exponents; `Text('f', -1)` is a parameter with its documented contract
  `Prints`, and `digits.PREC_BITS` is an arbitrary number of bits.
* Functions that nothing calls or whose result nothing reads: `hydrateElementFormDefault`, `hydrateAttributeFormDefault`, `Stack.Copy`.
  `listenForShutdown` (cmd/telefacts/main.go) waits for a signal. The read, write and idle timeouts of the server (main.go) are not modelled.
* `http.DetectContentType` is restricted to the answers `image/jpeg` and `image/png`.

## Orders of discovery

`discover` takes the order in which the writes of the goroutines are applied as a function `sched`. Theorems about discovery alone hold for
every permutation. `Runs` (Model/Discover.lean) has exactly the orders that goroutines can produce: a goroutine writes the namespace, then
come the writes of those that it starts, merged in any way, then it writes the file; goroutines side by side are merged in any way.
`Disc.runs_perm` shows that each is a permutation, and `C174_discover_orders` that they are the orders of the executions of
Model/Goroutines, one step of one goroutine at a time. Loads of a server (`Ends`, Model/Server.lean) are only those with such an order
(`Realised`), so that no refutation about the server rests on an order that cannot happen.

## Known simplifications of the transcription

Two further readings of every modelled function against `/repo` found these differences, none of which changes the claims.
(`go.mod` says go 1.22, so a loop variable is fresh in every round; contextualQuadrant.go:127 keeps addresses of one.)

* `-0` and `0` are one number; Go prints `-0` for the former.
* `sort.SliceStable` with an order that is not transitive (arc orders that are NaN) may give another permutation than insertion sort.
  Theorems on sorted lists that need it assume orders that are no NaN.
* `GetLabel` ranges over the label linkbases in every call; the model has one order per concept and request (`Choice.labelOrder`).
* `TypedMembersMap` and `h.Instances` are ranged over several times in one call; the model uses one order for these. (The linkbases that
  `getEffectiveDimensions` ranges over do have an order of their own for every link.)
* A colspan of the least `int` overflows in `colspan - 1`; the model gives 0.
* A panic in a goroutine ends the process; in the model the request is not answered, and others may be.
* Accesses that race (C175: the error variables of DecodeIxbrlFile and HydrateDocument, the languages and label roles of MarshalRenderable)
  are atomic in the models of these functions; Go does not promise that.
* Files are read once for a call; the code reads some of them again in the same call. As files are constant this is the same.
* `Disk.env.transform` is the identity: embedding images changes only the bytes of a document, which `Model/Server.lean` computes separately.

## Mutation tests: what `seeded/LOG.jsonl` shows

Each line is one edit of a model definition in a scratch copy, followed by a full build.

* `evidence: property theorem failed`: the proof of a theorem `Cnn_...` itself broke.
* `evidence: only helper proofs failed: inconclusive` (`survived: null`): only proofs of lemmas broke. This does not show
  that a property theorem is false of the mutant, since a proof may break although its theorem stays true (it did so for
  mutants known to be equivalent). Earlier versions of the log counted these as detected, which was wrong.
* `evidence: refuted`: the negation of the property theorem was proved in the scratch copy for the mutant.
* `evidence: refuted by witness`: original and edited definition were evaluated on the input in `witness` and give different
  results. The property theorem is an equivalence with a specification that was not edited, so it is false of the edited one.
* `evidence: survived`: all property theorems still prove, even if an `example` broke.

Many theorems have the form `f x = y ↔ Spec x y`, where `Spec` does not mention the model. Such a theorem determines `f`: if it
also held for a mutant `f'`, then `f' x = y ↔ Spec x y ↔ f x = y` for all `y`, so `f' = f`. Hence a mutant that computes something
else for some input necessarily falsifies it, whichever proof it is that breaks first in the build.

A broken proof of a property theorem is otherwise weaker than a refutation: it shows that the proof has to change.

## Plan per property

| id | model | proof |
|----|-------|-------|
| C01 | `Xmlns`, `FindAttr` on attribute lists | list induction, spec = first declaration |
| C02 | `NewNameProvider` as a fold with panics | fold invariant |
| C03 | same | witness of collision; partial under "no declared prefix looks generated"; `C03_given` says which prefix each namespace gets (also when prefixes are declared twice) and `C03_exact` exactly when two share one |
| C04 | `newPrefix`/`toChar` | induction on the candidate index |
| C05 | `ProvideXmlName` | case analysis |
| C06 | `ProvideName` over all permutations of the map | permutation lemma |
| C07 | both functions | witness for the XBRL instance namespace; partial otherwise |
| C08 | `UrlToFilename` with `filepath.Join/Clean` on segments | witness; partial without dot segments |
| C09 | same | injectivity |
| C10 | `DiscoverGlobalFile` with a file-system parameter | witness; partial for present files |
| C11 | discovery with fuel | terminates iff `Acc` of the reference relation |
| C12 | same | induction on fuel / reachability |
| C13 | discovery as a list of map writes, any permutation | commutation of equal writes |
| C14 | `Discover` case split on extension | case analysis |
| C15 | folder store state machine | invariant over call histories |
| C16 | same with crash points | case analysis over crash points |
| C17 | file content with crash points | characterisation of reachable contents |
| C18 | HTML tree walk | structural induction |
| C19 | merge by role | fold invariant |
| C20 | arc filter | list induction |
| C21 | definition arc flags | witness; exact characterisation as partial |
| C22 | `hydrateFacts` | stable sort lemma |
| C23 | precision decoding | witness; partial away from the sentinels |
| C24 | `hydrateContexts` | list induction |
| C25 | typed member token loop | witness; exact chain characterisation as partial |
| C26 | `FindMeasurement` | witness; partial when namespaces/ids agree |
| C27 | `mapMeasurements` | fold invariant |
| C28 | queries over schemas | search lemmas |
| C29 | `FindFact` | search lemmas |
| C30 | `GetFootnotes` | witness; partial for one link |
| C31 | `HydrateDocument` | fold invariant, interleavings |
| C32, C33 | dedup + sort | uniqueness of sorted permutations |
| C34 | catalog and renderable selection | search lemma |
| C35 | concatenated hash input | witness for every hash; partial when unambiguous |
| C36 | FNV-128a and hex | list lemma |
| C37, C38 | `getRelevantContexts` | fold invariant; witness for panic |
| C39 | comparator | strict weak order, sort lemma |
| C40, C41 | quadrant | map lemmas; witness for footnote numbers |
| C42-C44 | member grid | map lemmas; witness for two typed dimensions |
| C45 | rose tree walk | structural induction |
| C46 | `getSummationItems` | sort lemmas |
| C47, C48 | `getDRS` | membership lemmas; witness for default flag |
| C49-C51 | label packs | fold invariants; witnesses |
| C52 | three unsynchronised appends as read/write steps | witness; exact result for sequential schedules |
| C53 | `monthCount` day loop | induction on days over a civil calendar |
| C54-C56 | formatting | case analysis |
| C57, C58 | token loop | stack invariant |
| C59 | renderable error flow | witness; a slug of the catalog renders iff the registry can be read |
| C60-C64 | cache state machine | invariant over histories |
| C65-C67 | handlers | decision table; escape round trip; witness |
| C68 | global schema cache | invariant |
| C69, C70 | effective domain | sort lemmas, partition |
| C71, C72 | label links, role references | list induction |
| C73, C74 | schema hydration | list induction; witness for later annotations |
| C75, C76 | name and entity queries | search lemmas |
| C77, C78 | units and footnote links | list induction, stable sort lemma |
| C79 | networks of the catalog | lookup lemma of nested map writes |
| C80 | locator maps | search lemma over nested lists |
| C81 | several presentation linkbases | witness; partial for one link |
| C82 | languages of calculation facts | witness; partial for the last item |
| C83, C84 | effective domain against its dimension | witnesses; partial |
| C85 | `getRootDomains` | loop invariant, outline of a tree |
| C86 | `getEffectiveDimensions` | fold invariant; witness with two linkbases |
| C87 | `renderFact`, `unitHead`, `unitTail` | case analysis; digits and percent arithmetic are parameters |
| C88 | `express` | exact case analysis |
| C89 | `periodTexts` | fold over the label languages |
| C90 | `express` | exact condition for a panic; witnesses without document and with two instances |
| C91 | `express`, `getMemberGrid` | from C43 for the single column; witness with a typed dimension elsewhere |
| C92, C93 | `pGrid`, `dGrid`, `cGrid` | composition of C37, C40, C42, C45; loop invariants |
| C94, C95 | the same, with `FindFact` | C94: witness with two currencies, partial for facts without rival; C95: one instance in discovered folders |
| C96-C98 | `renderGrids` with a schedule of the three grids | from C92, C93; witness for languages |
| C99, C100 | `Model/Xml.lean`: decoding of element trees by struct tags | exact relation to the children; witnesses for reserved names and tuples |
| C101 | `Model/Hydrate.lean`: `Hydrate` over whole folders | success characterised exactly; one entry per file |
| C102 | `load` (discover, re-read, hydrate), `renderGrids` | composition of C99, C101, discovery, lookup and the grids; demo folder on disk |
| C103 | `Model/Router.lean`: `route`, `serve` | exact characterisation of the routes; clean paths |
| C104, C105 | `filepath.Join` of folder paths, discovery over one file system | path algebra; congruence of discovery; witness with `..` |
| C106 | `Model/Media.lean`: `processImages`, base64 | decoder as specification, exact inverse; composition with C18 |
| C107 | `Model/Ixbrl.lean`: `DecodeIxbrlFile` on element trees | mutual induction on trees; composition with C31; witnesses |
| C108 | `Model/Listing.lean`: the catalog of a loaded folder | composition of C12, C101, C99, C32, C33, C79 |
| C109 | `Model/Json.lean`: writer and reader of `encoding/json` | grammar of RFC 8259 as specification; reader sound and complete; unambiguity |
| C110 | `Model/Codec.lean`: `marshalCatalog` | sorted members are unique; composition with C109, C32, C33 |
| C111 | `Model/Codec.lean`: metadata file, UTF-8 | no proper prefix of an object is a text; composition with C16 |
| C112 | `Model/Codec.lean`: `decodeNames`; `entityQuery` | composition of C109 with C76 |
| C113 | `Model/NetUrl.lean`: net/url `Parse`, `ParseRequestURI`, `IsValidUrl`, `Hostname` | grammar of URLs as separate spec; iff |
| C114 | same | witness; exact iff for valid URLs |
| C115 | same with `UrlToFilename` | C08/C09 instantiated with the parser, which is proved to meet their hypothesis |
| C116 | `Model/GridJson.lean`: the encoder on the structures of renderables | client view as separate spec (`Member`, `Elems`); no key of a map occurs twice; composition with C109 |
| C117 | same, expressions | same |
| C118 | same with `load` and `renderGrids` | paths into the answer (`At`); composition of C102 and C116 |
| C119 | `Model/XmlText.lean`: the decoder of encoding/xml, from characters to trees | grammar of well-formed texts as separate spec (`IsDocument`); soundness and completeness by induction on the length of the text |
| C120 | same | witnesses (garbage after the root, attributes twice, prefixes undeclared); for every file that is read, anything may follow; exactly which texts are read; the rest from C119 |
| C121 | same with the token stream of typed members and `load` | witness (encoding declared inside a member), and no such folder is loaded; otherwise members are content, hence tokens |
| C122 | same | source text and value of content compared by lengths; witnesses through the whole loader |
| C123 | same with C118 | composition |
| C124 | Model/Server.lean, below Model/Cache.lean | invariants of the cache (C60) with loads of the folder that differ in schedule; C108, C110, C118 |
| C125 | Model/Http.lean, above Model/Cache.lean | C103 and C124 |
| C126 | Model/Linkbase.lean | hydration does not read `use` and `priority`; C20 for files without prohibition |
| C127 | Model/Linkbase.lean, Model/Network.lean | C80, C19; witness for every tree |
| C128 | Model/Network.lean | independence of `preferredLabel` |
| C129 | Model/Domain.lean | C69 |
| C130, C131 | Model/Domain.lean, Model/Network.lean | independence of `usable` and `targetRole`; C69, C47, C127 |
| C132 | Model/Network.lean | induction on forests, given the contract `IsForest` for the tree builder |
| C133 | Model/Server.lean, Model/Http.lean | C88, C107, C117 and C60 for one loaded folder; C103 for the request |
| C134 | Model/Linkbase.lean | from C20 |
| C135 | Model/Server.lean, Model/Image.lean | from C18, C106, C60; over HTTP from C103 |
| C136 | Model/Domain.lean | invariants of the walk; C69 |
| C137, C138 | Model/Discover.lean, Model/Instance.lean | from C12; independence of `linkbaseRef` and of members that do not resolve |
| C139 | Model/Context.lean | uniqueness of stable sorts |
| C140 | Model/Network.lean, Model/Linkbase.lean | from C46, C19 |
| C141, C142 | Model/Period.lean | arithmetic of calendar dates; C53 |
| C143, C144 | Model/ParseFloat.lean, Model/Network.lean | error bound and monotonicity of rounding to doubles; C132, C140 |
| C145 | Model/Member.lean, Model/Grid.lean | trees of typed labels with one dimension per context; GridWF invariants |
| C146 | Model/Hydrate.lean, Model/Label.lean, Model/Grid.lean | C12 and C99 for the label linkbases, C49 for the texts, an invariant of every grid for the places |
| C147, C148 | Model/Discover.lean, Model/Hydrate.lean | from C12, C75, C99, C108; one location per namespace |
| C149 | Model/Hydrate.lean, Model/Grid.lean | from C92, C93 and the facts of a loaded folder |
| C150 | Model/Grid.lean | from the columns of C37 |
| C151 | Model/Hydrate.lean, Model/Grid.lean | from C146 |
| C152, C153 | Model/Server.lean, Model/Query.lean, Model/Quadrant.lean | from C26, C30, C41, C87 and C118: a fact followed from the file to the client (Props/Followed) |
| C154 | Model/Process.lean, Spec/Process.lean | which goroutines can panic; from C31, C37, C38, C42 and a followed instance (Props/Process) |
| C155 | Model/Setup.lean, Spec/Setup.lean | induction over the calls; C60 for the histories (Props/Setup) |
| C156 | Model/BigFloat.lean, Spec/Percent.lean | rounding towards zero over the rationals: greatest number with p bits, gap to the next one (Proof/BigFloat, Props/Percent); number of roundings in the powers of five, by induction on the exponent (Proof/BigPow) |
| C157 | Model/Startup.lean, Spec/Startup.lean | names of files as lists of segments; whatever `Dir.Open` yields is the root with names after it, and all of them are reached (Props/Startup) |
| C158 | Model/Cache.lean, Model/Server.lean | entries are kept by every step; one more for every unknown name (Props/CacheSize) |
| C159, C160 | Model/TextBlock.lean, Spec/Tables.lean | the stacks of spans are empty between cells (Props/Tables) |
| C161 | Model/Period.lean, Model/Xml.lean | length and first character of written dates; C55 (Props/Written) |
| C162 | Model/Discover.lean | one key (way) per schema write, by induction on fuel; doubling chain of imports (Spec/Ways, Props/Ways) |
| C163 | Model/Discover.lean, Model/Router.lean | walks in the directory tree, lengths of the paths reached; discovery sees only written references (Spec/Relative, Props/Relative) |
| C164 | Model/Server.lean | relation between hydrated folders that differ only in texts of names; simulation of all answers (Spec/Respelled, Proof/Alike, Props/Respelled) |
| C165 | Model/Server.lean | stable sorting by id depends only on the order within ids; the same simulation (Spec/Reordered, Props/Reordered) |
| C166 | Model/Instance.lean, Model/XmlText.lean | names with two colons; walk over three tokens (Props/OwnNamespace) |
| C167 | Model/Express.lean, Model/Server.lean, Spec/SameCell.lean | both answers are characterised by the same concept, fact and context of the one instance (Props/SameCell) |
| C168 | Model/Server.lean, Model/Cache.lean, Spec/Isolation.lean | every step of an answer about a folder looks at that folder only; C60 for the cache (Props/Isolation) |
| C169 | Model/Discover.lean, Model/Server.lean, Spec/Unreferred.lean | discovery reads only names that the entry leads to, by induction on fuel; hence equal backends; trees without a shown image are kept (Props/Unreferred) |
| C170 | Model/Fnv.lean, Spec/Near.lean | differences of states as polynomials at the prime, modulo 2^128; Horner's scheme at 315 (Proof/FnvWindow, Props/Near) |
| C171 | Spec/FollowedArcs.lean | C140, C132, C47 for the linkbases that the disk determines; carried through C124 and the text of the grids (Props/FollowedArcs; a site in Props/FollowedArcsDemo) |
| C172 | Spec/Versions.lean | Runs of one version after those of another (Proof/Versions: `blend` fixes one folder and leaves the rest free, `Fewer` compares the programs of versions, `Stands` is the invariant); Model/Keeping.lean for the files of folders (Props/VersionsServed); `_fails`, `_partial` |
| C173 | Spec/Versions.lean | Induction over `Phases`; bytes are stored only for folders that are stored (`Together`); `_fails`, `_partial` |
| C174 | Model/Threads.lean, Model/Goroutines.lean, Spec/Threads.lean | a program races if and only if two parallel branches have conflicting accesses without a common mutex (`racy_iff`, Proof/Threads), then the accesses of each function (Props/Goroutines) |
| C175 | same | same; `_fails`, `_exact`, `_partial` |
| C176 | Grid, Facts, Server | `_expression_partial` (all orders of maps but that of several label linkbases: `_label`, `_label_fails`); `_renderable_partial`, `_first_fails`, `_fails` |
| C177 | Discover, Hydrate, Server | `_catalog`; `_expression_partial`, `_renderable_partial`, `_determined_partial` (no namespace with two locations that it may be given last); `_fails` |
| C178 | Discover (`Runs`, `Realised`), Server | `_exact`: induction over merges of the writes of goroutines; `_executions` with Model/Goroutines (Proof/Traces); `_fails` |
| C179 | Fnv, Catalog, Renderable | FNV and numerals as relations (Spec/Hash); folds over octets, big-endian digits by induction |
