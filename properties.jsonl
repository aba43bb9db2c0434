{"id": "C01", "title": "Prefixed names resolve to the declared namespace", "statement": "Xmlns(attrs, \"p:l\") with non-empty l is {Space: value of the first xmlns:p declaration in attrs, Local: l}; if p has no declaration (or an empty one) Space is the value of the first attribute whose local name is xmlns, or empty; a name without a colon resolves to that default; \"p:\" resolves to the empty name. Only the first colon separates prefix and local part.", "quantifier": "every attribute list and every name string", "why_tests_cant": "the answer depends on the position and multiplicity of declarations in an arbitrary list and on where colons occur in an arbitrary string", "anchors": ["pkg/attr/attr.go: Xmlns, Ns, FindAttr"]}
{"id": "C02", "title": "One output prefix per namespace", "statement": "Whenever NewNameProvider returns, any two declared prefixes bound to the same namespace URI are given the same output prefix, and prefixes bound to the six well-known namespaces are given the fixed output prefixes (empty, xbrldi, xlink, xsi, iso4217, link).", "quantifier": "every list of attributes of the html element, in every order", "why_tests_cant": "depends on accumulated state over an arbitrary-length declaration list", "anchors": ["pkg/attr/name.go: NewNameProvider, processPrefixes, targetPrefix"]}
{"id": "C03", "title": "Different namespaces never share an output prefix", "statement": "Whenever NewNameProvider returns, two declared prefixes bound to different namespace URIs are given different output prefixes.", "quantifier": "every list of attributes with distinct declared prefixes", "why_tests_cant": "a collision needs a specific combination of declarations that sampling will not hit", "anchors": ["pkg/attr/name.go: processPrefixes, newPrefix"]}
{"id": "C04", "title": "Fresh prefix allocation: result is unused, and exactly when it fails", "statement": "When a namespace needs a new output prefix the chosen prefix is the declared one or the declared one followed by '-' and a letter, is not already a declared or reserved prefix, and is the first such candidate; allocation aborts the process (panic) exactly when the declared prefix and all 26 lettered variants are taken. It never loops forever.", "quantifier": "every declared prefix and every set of prefixes already in use", "why_tests_cant": "needs 27 simultaneous collisions, and non-termination cannot be observed by a test", "anchors": ["pkg/attr/name.go: newPrefix, toChar"]}
{"id": "C05", "title": "Splitting a prefixed name is exact; unprefixed names abort", "statement": "ProvideXmlName(\"p:l\") returns {namespace last bound to p, l} when p is declared and an error when it is not; for every name with no colon it panics (slice index -1).", "quantifier": "every declaration list and every name", "why_tests_cant": "universal over names; the panic hits a whole class of inputs", "anchors": ["pkg/attr/name.go: ProvideXmlName"]}
{"id": "C06", "title": "ProvideName is independent of map order and never panics", "statement": "For every namespace and local name ProvideName returns the same string whatever order the runtime iterates its prefix map, and the panic at its end is unreachable; undeclared namespaces yield the bare local name.", "quantifier": "every declaration list, namespace, local name and every iteration order of the map", "why_tests_cant": "Go randomises map order, a test sees only the orders it happens to get", "anchors": ["pkg/attr/name.go: ProvideName"]}
{"id": "C07", "title": "ProvideConceptName and ProvideName agree except for the instance namespace", "statement": "For a declared prefix p bound to ns, ProvideConceptName(\"p:l\") equals ProvideName(ns, l) if and only if ns is not the XBRL instance namespace; for that namespace they are \":l\" and \"l\".", "quantifier": "every declaration list, every declared prefix and local name", "why_tests_cant": "universal over declarations; the exception is a single namespace", "anchors": ["pkg/attr/name.go: ProvideConceptName, ProvideName"]}
{"id": "C08", "title": "A taxonomy URL maps to a file inside the global taxonomy set", "statement": "For every URL accepted by UrlToFilename the resulting path lies under <GlobalTaxonomySetPath>/concepts.", "quantifier": "every URL (scheme, host, path segments)", "why_tests_cant": "path traversal depends on arbitrary sequences of .. segments", "anchors": ["pkg/serializables/global.go: UrlToFilename"]}
{"id": "C09", "title": "Two taxonomy URLs share a file only if they have the same scheme, host and path", "statement": "For URLs whose host and path segments are not . or .., UrlToFilename gives equal paths exactly when scheme, hostname and the non-empty path segments are equal (query, fragment, port and repeated slashes are ignored).", "quantifier": "every pair of URLs", "why_tests_cant": "injectivity is a statement about all pairs", "anchors": ["pkg/serializables/global.go: UrlToFilename"]}
{"id": "C10", "title": "DiscoverGlobalFile: exactly which inputs give an error", "statement": "DiscoverGlobalFile returns an error if and only if the URL is not accepted; for an accepted URL it returns the bytes of the file for that URL, or no bytes and no error when that file is missing or unreadable (a caller cannot tell a missing taxonomy file from an empty one by the error).", "quantifier": "every URL and every file-system state", "why_tests_cant": "the outcome depends on an arbitrary file system and on how an arbitrary URL maps to a file name", "anchors": ["pkg/serializables/global.go: DiscoverGlobalFile"]}
{"id": "C11", "title": "Discovery of a folder terminates exactly when its local schema references are acyclic", "statement": "Discover(id) returns if and only if there is no infinite chain of local (non-URL), readable schema references (schemaRef, then import/include) starting at the instance.", "quantifier": "every folder content (any reference graph)", "why_tests_cant": "non-termination cannot be tested; the graph is arbitrary", "anchors": ["pkg/serializables/folder.go: Discover, schemaRef, importSchema, includeSchema"]}
{"id": "C12", "title": "Discovery collects exactly the reachable schemas and linkbases", "statement": "When Discover returns, a local schema is in Folder.Schemas iff it is reachable from the instance through accepted references, with the parsed file as value; the same for each kind of linkbase through accepted linkbaseRef elements.", "quantifier": "every folder content and every goroutine schedule", "why_tests_cant": "reachability over arbitrary graphs and interleavings", "anchors": ["pkg/serializables/folder.go: schemaRef, importSchema, includeSchema, linkbaseRefSchema"]}
{"id": "C13", "title": "Discovery does not depend on the goroutine schedule", "statement": "For every two interleavings of the discovery goroutines' locked map writes, Schemas and the four linkbase maps are equal; Namespaces is equal too whenever no namespace is given two different locations.", "quantifier": "every folder content and every pair of interleavings", "why_tests_cant": "a race detector or repeated runs sample interleavings only", "anchors": ["pkg/serializables/folder.go: schemaRef, importSchema, includeSchema, linkbaseRefSchema"]}
{"id": "C14", "title": "A discovered folder holds exactly one instance, or none for unknown entry types", "statement": "If Discover succeeds the folder has exactly one instance when the entry name ends in .xhtml/.htm/.xbrl/.xml (keyed by the entry name, with .xml appended for inline documents) and none otherwise.", "quantifier": "every entry file name and folder content", "why_tests_cant": "universal over entry names", "anchors": ["pkg/serializables/folder.go: Discover"]}
{"id": "C15", "title": "Creating a folder never touches an existing one", "statement": "NewFolder leaves every existing folder and its metadata unchanged; on success the returned id was unused before; a non-empty key always maps to the same id and a second call with that key returns that id with ErrExist.", "quantifier": "every history of NewFolder calls, keys and random ids", "why_tests_cant": "history-dependent; random ids cannot be enumerated", "anchors": ["pkg/serializables/underscore.go: NewFolder"]}
{"id": "C16", "title": "Crash points of folder creation", "statement": "Whatever the crash point, a folder that NewFolder reported as created has its metadata file; a crash inside NewFolder can leave an empty folder without metadata, after which the same key can never be created again.", "quantifier": "every crash point of a NewFolder call", "why_tests_cant": "a crash between mkdir and the write cannot be scheduled in a unit test", "anchors": ["pkg/serializables/underscore.go: NewFolder, GetEntryFileName"]}
{"id": "C17", "title": "Crash points of WriteFile", "statement": "After a crash at any point of WriteFile the destination holds the old contents, or a prefix of the new data (possibly empty), never anything else; it is not atomic.", "quantifier": "every crash point, old content and data", "why_tests_cant": "crash points cannot be exercised by tests", "anchors": ["internal/actions/writeFile.go: WriteFile"]}
{"id": "C18", "title": "Inlining images changes nothing but image sources", "statement": "The image rewriting walk keeps the document tree identical except that a src attribute of an img element whose base name is a known image becomes that image's data URL.", "quantifier": "every HTML tree and every image map", "why_tests_cant": "structural property over arbitrary trees", "anchors": ["pkg/serializables/image.go: replace"]}
{"id": "C19", "title": "Extended links of the same role are merged, none lost, one per role", "statement": "For every linkbase file, the hydrated presentation/definition/calculation links contain each role exactly once, with the locators and arcs of all extended links of that role concatenated in document order.", "quantifier": "every linkbase file and every map iteration order", "why_tests_cant": "depends on arbitrary numbers and orders of links and on randomised map order", "anchors": ["pkg/hydratables/presentationLinkbase.go: dedupPresentationLink", "pkg/hydratables/definitionLinkbase.go: dedupDefinitionLink", "pkg/hydratables/calculationLinkbase.go: dedupCalculationLink"]}
{"id": "C20", "title": "Arcs are kept verbatim or dropped as a whole", "statement": "A hydrated arc exists for exactly those arc elements that carry xlink type arc, arcrole, from and to and a non-empty order (and weight for calculation), in document order, with from/to/arcrole verbatim; an unparsable order becomes the largest float and an unparsable weight becomes 0.", "quantifier": "every linkbase file", "why_tests_cant": "universal over attribute lists", "anchors": ["pkg/hydratables/presentationLinkbase.go: hydratePresentationLink", "pkg/hydratables/definitionLinkbase.go: hydrateDefinitionLink", "pkg/hydratables/calculationLinkbase.go: hydrateCalculationLink"]}
{"id": "C21", "title": "The closed and usable flags of definition arcs reflect the document", "statement": "A hydrated definition arc has Closed = true iff its closed attribute is a true boolean, and Usable = false iff its usable attribute is a false boolean.", "quantifier": "every definition linkbase file", "why_tests_cant": "universal over attribute values; existing fixtures only use defaults", "anchors": ["pkg/hydratables/definitionLinkbase.go: hydrateDefinitionLink"]}
{"id": "C22", "title": "Every resolvable fact is kept exactly once, in id order", "statement": "HydrateInstance turns each fact element with a resolvable concept and non-empty contextRef into exactly one Fact with its attribute values, drops all others, and orders the result by id with document order among equal ids.", "quantifier": "every instance file and taxonomy", "why_tests_cant": "a permutation/stability statement over arbitrary lists", "anchors": ["pkg/hydratables/instance.go: hydrateFacts"]}
{"id": "C23", "title": "The decimals attribute is represented without ambiguity", "statement": "Facts have precision Exact iff decimals is INF, Precisionless iff decimals is absent or not an integer, and otherwise the integer itself.", "quantifier": "every decimals attribute value", "why_tests_cant": "sentinels collide with two specific integers out of 2^64", "anchors": ["pkg/hydratables/instance.go: hydrateFacts", "pkg/hydratables/precision.go"]}
{"id": "C24", "title": "Contexts are hydrated completely and hydration does not panic", "statement": "hydrating contexts yields, in id order, exactly the contexts with an id, an entity identifier with scheme and non-empty text; it panics exactly when a context with an id has no entity element.", "quantifier": "every instance file", "why_tests_cant": "the panic needs a malformed context; ordering is universal", "anchors": ["pkg/hydratables/instance.go: hydrateContexts"]}
{"id": "C25", "title": "Typed domain arcs mirror the nesting of the typed member", "statement": "For a typed member whose element names all resolve, the typed domain arcs connect each element to its parent element (the outermost to the dimension).", "quantifier": "every typed member XML tree", "why_tests_cant": "structural property over arbitrary trees", "anchors": ["pkg/hydratables/instance.go: hydrateTypedMembers"]}
{"id": "C26", "title": "Unit lookup returns the numerator's and the denominator's registry entries", "statement": "For a divide unit FindMeasurement returns the registry entries of its numerator measure and of its denominator measure.", "quantifier": "every unit and every registry", "why_tests_cant": "universal over units; no test fixture asserts on denominators", "anchors": ["pkg/hydratables/measurement.go: FindMeasurement, queryUTR"]}
{"id": "C27", "title": "The unit registry maps (namespace, id) to its last complete entry", "statement": "After hydration the registry has an entry for (ns, id) iff the registry file has a unit with non-empty id, name and namespace equal to them, and the entry is the last such unit.", "quantifier": "every registry file", "why_tests_cant": "last-writer-wins over arbitrary lists", "anchors": ["pkg/hydratables/measurement.go: mapMeasurements"]}
{"id": "C28", "title": "Name lookup and href lookup are inverse", "statement": "If NameQuery(ns, local) finds a concept with reference href then HashQuery(href) succeeds and returns a concept of the same schema with the same id, and it is the very same concept when ids are unique in that schema.", "quantifier": "every folder, namespace and local name (schema locations without '#')", "why_tests_cant": "round-trip law over all taxonomies", "anchors": ["pkg/hydratables/query.go: NameQuery, HashQuery"]}
{"id": "C29", "title": "FindFact returns a matching fact iff one exists", "statement": "FindFact(href, contextRef) returns a fact with that href and contextRef whenever one exists in the folder and nil otherwise; with one instance it is the first in id order, whatever the map order.", "quantifier": "every folder and query", "why_tests_cant": "search over arbitrary lists", "anchors": ["pkg/hydratables/fact.go: FindFact"]}
{"id": "C30", "title": "GetFootnotes returns the footnotes linked to the fact", "statement": "GetFootnotes(fact) contains every footnote that some footnote arc of some footnote link connects to the fact's id.", "quantifier": "every folder with any number of footnote links", "why_tests_cant": "depends on several links in one instance, the first one hiding the others", "anchors": ["pkg/hydratables/fact.go: GetFootnotes, mapFnoteLocatorToHref, FindFootnote"]}
{"id": "C31", "title": "Inline document hydration is schedule independent and complete", "statement": "HydrateDocument maps every name and contextRef used by an inline fact; it fails iff some inline fact uses an undeclared prefix (first among non-numeric facts, then numeric); the maps do not depend on the goroutine schedule.", "quantifier": "every inline document and every interleaving", "why_tests_cant": "interleavings and arbitrary node lists", "anchors": ["pkg/hydratables/document.go: HydrateDocument"]}
{"id": "C32", "title": "Catalog subjects are the distinct entities, sorted, in a canonical order", "statement": "The Subjects of the catalog are exactly the distinct (scheme, identifier) pairs with both parts non-empty, strictly sorted, and identical for every map iteration order.", "quantifier": "every folder and every map iteration order", "why_tests_cant": "Go map order is randomised; canonicity is a statement about all orders", "anchors": ["pkg/renderables/contexts.go: dedupEntities, sortedEntities", "pkg/renderables/catalog.go: MarshalCatalog"]}
{"id": "C33", "title": "Catalog relationship sets are the distinct role types, sorted, in a canonical order", "statement": "RelationshipSets are exactly the distinct (title, role URI) pairs with non-empty URI, strictly sorted by title then URI, identical for every map iteration order.", "quantifier": "every folder and every map iteration order", "why_tests_cant": "as above", "anchors": ["pkg/renderables/relationshipSet.go: dedupRelationshipSets, sortedRelationshipSets"]}
{"id": "C34", "title": "Every slug in the catalog resolves to a renderable", "statement": "For every entity and role URI listed in the catalog's Networks, MarshalRenderable of the listed slug does not answer 'object not found', and the selected subject and relationship set have that very slug; if slugs are collision free on the folder they are the listed ones.", "quantifier": "every folder and every slug in its catalog", "why_tests_cant": "a cross-endpoint law over all folders", "anchors": ["pkg/renderables/catalog.go: MarshalCatalog, hash", "pkg/renderables/renderable.go: MarshalRenderable"]}
{"id": "C35", "title": "Different networks have different slugs", "statement": "Two different (entity, role URI, title) triples of one folder never have the same slug.", "quantifier": "every pair of triples", "why_tests_cant": "the counterexample is a re-bracketing of concatenated strings, for any hash function", "anchors": ["pkg/renderables/catalog.go: hash", "pkg/renderables/contexts.go: stringify"]}
{"id": "C36", "title": "Slugs are 32 lower-case hexadecimal digits", "statement": "Every slug is 32 characters from 0-9a-f, so it never looks like a document name (.htm/.xhtml), 'facts' or an empty segment.", "quantifier": "every entity, role and title", "why_tests_cant": "universal over hash inputs", "anchors": ["pkg/renderables/catalog.go: hash", "pkg/cache/cache.go: MarshalRenderable"]}
{"id": "C37", "title": "The columns of a grid are exactly the contexts that have facts for its rows", "statement": "getRelevantContexts returns, for one instance, each contextRef at most once; every returned context belongs to the requested entity and has a fact for a concrete row concept, and every such context is returned.", "quantifier": "every folder, entity and row list", "why_tests_cant": "set-equality over arbitrary facts and contexts", "anchors": ["pkg/renderables/contexts.go: getRelevantContexts"]}
{"id": "C38", "title": "Rendering does not crash on dangling context references", "statement": "Rendering never dereferences a missing context: a fact whose contextRef names no hydrated context is skipped.", "quantifier": "every folder", "why_tests_cant": "needs a malformed instance; the panic happens in a goroutine", "anchors": ["pkg/renderables/contexts.go: getRelevantContexts, getContext"]}
{"id": "C39", "title": "Columns are ordered by period, then by number of dimension members", "statement": "The columns are a permutation of the relevant contexts ordered by period text, then number of members, then the first member; order among equals is preserved.", "quantifier": "every list of contexts", "why_tests_cant": "comparator law over all inputs", "anchors": ["pkg/renderables/contexts.go: sortContexts"]}
{"id": "C40", "title": "The factual quadrant has one row per concept and one column per context, each cell the fact for that pair", "statement": "FactualQuadrant and FootnoteGrid have len(hrefs) rows and len(contexts) columns (both empty if either is zero) and cell (i,j) renders the fact with href i and context j.", "quantifier": "every row list and column list", "why_tests_cant": "shape and content for all sizes", "anchors": ["pkg/renderables/factualQuadrant.go: getFactualQuadrant"]}
{"id": "C41", "title": "Footnote numbers in cells point at that cell's footnotes", "statement": "If cell (i,j) lists number k then Footnotes[k-1] is the text of a footnote of that cell's fact.", "quantifier": "every grid and every map iteration order", "why_tests_cant": "three independent randomised iterations over one map must agree", "anchors": ["pkg/renderables/factualQuadrant.go: getFactualQuadrant"]}
{"id": "C42", "title": "The member grid is aligned with its headers", "statement": "ContextualMemberGrid has one row per VoidQuadrant entry and one column per context; a cell is empty iff the context has no member matching the row, otherwise it shows the first matching member.", "quantifier": "every list of contexts and typed domain trees", "why_tests_cant": "shape and content for all sizes", "anchors": ["pkg/renderables/contextualQuadrant.go: getMemberGridAndVoidQuadrant"]}
{"id": "C43", "title": "Explicit dimension rows: each dimension appears, in sorted order", "statement": "The explicit part of the VoidQuadrant has, in sorted href order, one row for each dimension with an explicit segment member and one for each with an explicit scenario member, independent of map iteration order.", "quantifier": "every list of contexts and map order", "why_tests_cant": "as above", "anchors": ["pkg/renderables/contextualQuadrant.go: getVoidQuadrant"]}
{"id": "C44", "title": "Typed dimension rows carry their own dimension", "statement": "Each typed row of the VoidQuadrant shows the dimension whose typed domain it belongs to.", "quantifier": "every set of typed domain trees", "why_tests_cant": "needs two typed dimensions in one table", "anchors": ["pkg/renderables/contextualQuadrant.go: getVoidQuadrant"]}
{"id": "C45", "title": "Presentation rows are the pre-order walk of the tree", "statement": "IndentedLabels is the pre-order traversal of the presentation tree, siblings in stable order of their order attribute, Indentation the depth, one row per node.", "quantifier": "every tree", "why_tests_cant": "structural induction over arbitrary trees", "anchors": ["pkg/renderables/presentationGrid.go: getIndentedLabels"]}
{"id": "C46", "title": "Calculation rows: sign and scale recompose the weight; order respected", "statement": "Each contributing concept has Sign '-' iff the weight is negative, Scale its absolute value; contributions of one summation item are in stable order of the order attribute, and summation items are in strictly increasing href order independent of map order.", "quantifier": "every calculation link and map order", "why_tests_cant": "universal over arcs and map orders", "anchors": ["pkg/renderables/calculationGrid.go: getSummationItems"]}
{"id": "C47", "title": "The DRS graph is closed and canonical", "statement": "Every link's source and target is a node; nodes are strictly sorted and every node is an endpoint; there is one link per definition arc of the role, in order, each with at most one connection kind, which says what the arc says (inclusive or exclusive, closed, context element, usable, order, target role).", "quantifier": "every folder and role", "why_tests_cant": "graph closure over arbitrary arcs", "anchors": ["pkg/renderables/dimensionRelationshipSet.go: getDRS"]}
{"id": "C48", "title": "Only dimension-default arcs are marked default", "statement": "In the DRS a dimension-domain connection has Default = true only for dimension-default arcs.", "quantifier": "every definition arc", "why_tests_cant": "the flag is constant in the code for another arc role", "anchors": ["pkg/renderables/dimensionRelationshipSet.go: getDRS"]}
{"id": "C49", "title": "Labels: the href is always available and each language shows the last matching label", "statement": "GetLabel(h, href) always has Default/Unlabelled = href; for each role and for en-US and es the text is that of the last matching label in traversal order.", "quantifier": "every set of label linkbases and href", "why_tests_cant": "last-writer-wins over arbitrary linkbases", "anchors": ["pkg/renderables/label.go: GetLabel, appendLabelModifiersFromHref, appendLanguage"]}
{"id": "C50", "title": "Labels tagged en are shown as English", "statement": "A label with lang en is available as English text.", "quantifier": "every label linkbase", "why_tests_cant": "Go switch cases do not fall through; fixtures use en-US", "anchors": ["pkg/renderables/label.go: appendLanguage"]}
{"id": "C51", "title": "Every language available in some label is offered", "statement": "The languages and roles offered for a grid include those of every label in it.", "quantifier": "every list of label packs", "why_tests_cant": "the merge keeps only the last pack per role", "anchors": ["pkg/renderables/labelPack.go: reduce, destruct"]}
{"id": "C52", "title": "The languages of a renderable do not depend on the schedule", "statement": "Lang contains the languages of the presentation, definition and calculation grids for every interleaving of the three goroutines.", "quantifier": "every interleaving of three unsynchronised appends", "why_tests_cant": "data race; a test sees few interleavings", "anchors": ["pkg/renderables/renderable.go: MarshalRenderable"]}
{"id": "C53", "title": "Month count is the number of calendar months touched", "statement": "For valid ISO dates at least 30 days apart the reported month count is (year,month) distance plus one; below 30 days no month count is shown.", "quantifier": "every pair of dates", "why_tests_cant": "day-by-day loop over unbounded ranges; off-by-one at month ends", "anchors": ["pkg/renderables/formatPeriod.go: monthCount"]}
{"id": "C54", "title": "Period headers keep the raw period and get one entry per language", "statement": "Formatting keeps the Unlabelled entry of every header, never changes the number of headers, and gives every header an entry for each offered language.", "quantifier": "every list of headers and languages", "why_tests_cant": "universal over lists", "anchors": ["pkg/renderables/formatPeriod.go: formatPeriod, formatRelevantPeriod, formatDate"]}
{"id": "C55", "title": "Formatted English instants identify the date", "statement": "Two valid ISO dates have the same English text only if they are the same date; text that is not a valid ISO date is shown unchanged.", "quantifier": "every pair of strings", "why_tests_cant": "injectivity is about all pairs", "anchors": ["pkg/renderables/english.go: formatEnglishDates"]}
{"id": "C56", "title": "Rendering of a fact: nil, missing, non-numeric", "statement": "A missing fact renders as an empty Unlabelled cell, a nil fact as 'nil', a non-text-block fact without decimals verbatim, and only English, Spanish and Unlabelled entries are produced, one for each that is offered.", "quantifier": "every fact, concept and language list", "why_tests_cant": "universal case analysis", "anchors": ["pkg/renderables/fact.go: render", "pkg/renderables/english.go: renderEnglishFact", "pkg/renderables/spanish.go: renderSpanishFact"]}
{"id": "C57", "title": "Text block sanitising never panics and keeps cells balanced", "statement": "For every token stream the sanitiser does not panic; for streams whose td (th) tags are balanced the output has equally many opening and closing td (th) tags.", "quantifier": "every HTML token stream", "why_tests_cant": "invariant over arbitrary token sequences (nested tables, colspans)", "anchors": ["pkg/renderables/textBlock.go: renderTextBlock, colSpanHelper, colSpan2Helper"]}
{"id": "C58", "title": "Text block output contains only table markup, line breaks and text", "statement": "The sanitised output is a concatenation of <table>,<tr>,<th>,<td>, their closing tags, <br /><br /> and trimmed text tokens followed by a space; no other tag or any attribute is emitted, and no line break is emitted inside a table.", "quantifier": "every HTML token stream", "why_tests_cant": "whitelist over arbitrary token sequences", "anchors": ["pkg/renderables/textBlock.go: renderTextBlock"]}
{"id": "C59", "title": "A renderable does not fail where the catalog succeeds", "statement": "If the entity name registry is unavailable MarshalRenderable falls back to scheme/identifier as MarshalCatalog does.", "quantifier": "every folder and registry state", "why_tests_cant": "the variable carrying the error is reused in the same scope", "anchors": ["pkg/renderables/renderable.go: MarshalRenderable", "pkg/renderables/catalog.go: MarshalCatalog"]}
{"id": "C60", "title": "Caching is transparent for successful responses", "statement": "If computing a catalog, renderable or fact expression is deterministic and succeeds, every call returns exactly the computed bytes, whatever other calls and delayed cache writes are interleaved.", "quantifier": "every history of calls and every interleaving of background cache writes", "why_tests_cant": "history and schedule dependent", "anchors": ["pkg/cache/cache.go: MarshalCatalog, MarshalRenderable, MarshalExpressable, hydratable"]}
{"id": "C61", "title": "A failing request fails again", "statement": "If a request failed, the same request repeated with nothing changed fails again.", "quantifier": "every history of calls", "why_tests_cant": "the failure is cached as an empty success by a background write", "anchors": ["pkg/cache/cache.go: MarshalRenderable, hydratable"]}
{"id": "C62", "title": "Cache entries of different kinds never collide", "statement": "For ids and hashes as accepted by the router, the keys of hydrated folders, catalogs, renderables, fact expressions, schemas, the unit registry and entity names never coincide.", "quantifier": "every id, hash, name and contextref", "why_tests_cant": "key-space disjointness over all strings", "anchors": ["pkg/cache/cache.go", "pkg/hydratables/global.go: InjectCache, HydrateEntityNames", "internal/web/web.go: NewRouter"]}
{"id": "C63", "title": "The cache lock is always released", "statement": "After any request has been served the cache lock is not held, so every other request and background write can proceed.", "quantifier": "every history of requests", "why_tests_cant": "a panic between RLock and RUnlock leaks the lock; needs a specific id", "anchors": ["pkg/cache/cache.go: hydratable"]}
{"id": "C64", "title": "A published response never changes", "statement": "Once all background writes for a key have happened, every later response for it is the same value, forever.", "quantifier": "every history of calls", "why_tests_cant": "no-expiry and overwrite behaviour over unbounded histories", "anchors": ["pkg/cache/cache.go: NewCache, MarshalRenderable"]}
{"id": "C65", "title": "HTTP status decision", "statement": "Catalog, Renderable and Expressable answer 200 with the bytes iff the method is GET, id (and hash) are non-empty, the query and then both parameters decode, and the cache call succeeds; an empty id or hash, or a parameter that does not decode a second time, is 400; everything else is 500.", "quantifier": "every request", "why_tests_cant": "total decision table over requests", "anchors": ["internal/web/web.go: Catalog, Renderable, Expressable"]}
{"id": "C66", "title": "Content-Type of successful responses", "statement": "The Content-Type of a successful response is the type net/http detects from its bytes (none for an empty body); the application/json set by the handlers never reaches the client.", "quantifier": "every successful request", "why_tests_cant": "header set after WriteHeader is silently dropped", "anchors": ["internal/web/web.go: Catalog, Renderable, Expressable"]}
{"id": "C67", "title": "Which fact query parameters reach the lookup unchanged", "statement": "For every name and contextref, percent-encoding them in the query string makes the handler look up exactly those strings iff neither contains '+' or '%'.", "quantifier": "every name and contextref string", "why_tests_cant": "round-trip over all strings; fails for '+' and '%'", "anchors": ["internal/web/web.go: Expressable"]}
{"id": "C68", "title": "Global schema cache is transparent", "statement": "HydrateGlobalSchema returns the schema of the file on disk for every interleaving of lookups and background writes, as long as the file is unchanged.", "quantifier": "every history of lookups and background writes", "why_tests_cant": "history and schedule dependent", "anchors": ["pkg/hydratables/global.go: HydrateGlobalSchema"]}
{"id": "C69", "title": "The effective domain of a row and dimension is sorted and marks defaults", "statement": "Every effective domain is ordered by href, defaults first, struck-through members last among equals, and every default member of the dimension under an inclusive hypercube is present and marked default when no member is listed twice.", "quantifier": "every set of definition networks", "why_tests_cant": "nested loops over arbitrary networks", "anchors": ["pkg/renderables/effectiveDomainGrid.go: getEffectiveDomain"]}
{"id": "C70", "title": "Primary items and hypercube domains partition the domain-member roots", "statement": "Every root of the domain-member network is either a primary item root or an explicit domain root, never both, order preserved; it is an explicit domain iff it is a child of a root of the dimension-domain or dimension-default network.", "quantifier": "every set of networks", "why_tests_cant": "partition law over arbitrary networks", "anchors": ["pkg/renderables/effectiveDomainGrid.go: getPrimaryItemNetworkAndExplicitDomainNetwork"]}
{"id": "C71", "title": "Label links are hydrated one by one, verbatim and in order", "statement": "The hydrated label links are, in document order, the extended label links with a role, each with exactly its well-formed locators, label resources (xlink label and role and a language, text verbatim) and arcs; an arc without an order is ordered by its position after the number of arcs.", "quantifier": "every label linkbase file", "why_tests_cant": "universal over documents; the default order depends on position and count", "anchors": ["pkg/hydratables/labelLinkbase.go: hydrateLabelLink"]}
{"id": "C72", "title": "Role references are exactly the well-formed roleRef elements", "statement": "For each linkbase kind the hydrated role references are, in document order, exactly the roleRef elements in the link namespace with non-empty roleURI and xlink:href, verbatim.", "quantifier": "every linkbase file", "why_tests_cant": "universal over documents", "anchors": ["pkg/hydratables/presentationLinkbase.go: hydratePresentationLinkbaseRoleRefs", "pkg/hydratables/labelLinkbase.go: hydrateLabelLinkbaseRoleRefs"]}
{"id": "C73", "title": "The concepts of a schema are exactly its usable element declarations", "statement": "The concepts of a hydrated schema are, in document order, exactly those of the element declarations with an id, a name and a type, with the attribute values of the declaration (flags true iff the attribute parses as true, typed domain reference resolved against the file).", "quantifier": "every schema file", "why_tests_cant": "universal over documents", "anchors": ["pkg/hydratables/schema.go: hydrateConcepts"]}
{"id": "C74", "title": "All role types of a schema are hydrated", "statement": "The role types of a hydrated schema are, in document order, the well-formed roleType elements of all its annotations.", "quantifier": "every schema file", "why_tests_cant": "universal over documents; only the first annotation is read", "anchors": ["pkg/hydratables/schema.go: hydrateAnnotation"]}
{"id": "C75", "title": "NameQuery finds a concept iff it is declared", "statement": "NameQuery(ns, local) answers with a concept iff the namespace is mapped to a readable schema declaring that name; the concept has that name and the reference is the schema location, '#' and the concept id.", "quantifier": "every folder, namespace and local name", "why_tests_cant": "iff over all folders", "anchors": ["pkg/hydratables/query.go: NameQuery"]}
{"id": "C76", "title": "EntityQuery shows registered names and falls back to scheme/identifier", "statement": "EntityQuery returns the registered name of a registered entity and scheme/identifier for any other.", "quantifier": "every entity registry, scheme and identifier", "why_tests_cant": "universal over registries", "anchors": ["pkg/hydratables/query.go: EntityQuery"]}
{"id": "C77", "title": "Units are hydrated exactly, in id order", "statement": "The units of a hydrated instance are exactly those of the unit elements with an id and either a measure or a divide element with a numerator and a denominator measure, with resolved names, in id order and document order among equal ids.", "quantifier": "every instance file", "why_tests_cant": "universal over documents", "anchors": ["pkg/hydratables/instance.go: hydrateUnits"]}
{"id": "C78", "title": "Footnote links are hydrated exactly, in title order", "statement": "The footnote links of a hydrated instance are exactly the extended footnote links in the default link role, each with exactly its well-formed locators, footnotes and fact-footnote arcs in document order; the links are in title order, document order among equal titles.", "quantifier": "every instance file", "why_tests_cant": "universal over documents", "anchors": ["pkg/hydratables/instance.go: hydrateFootnoteLinks"]}
{"id": "C79", "title": "The catalog lists a slug for every entity and role URI", "statement": "Networks[e][uri] is present iff e is the text of an entity of the folder and uri the role URI of a declared relationship set; its value is the slug of the last of these sets in title order.", "quantifier": "every folder", "why_tests_cant": "universal over folders; duplicates of a role URI", "anchors": ["pkg/renderables/catalog.go: MarshalCatalog"]}
{"id": "C80", "title": "A locator stands for the first locator of that label in the links of the role", "statement": "The href shown for a locator label is that of the first locator with this label in the links of the role, in document order, whose href has a fragment; without one, or without a roleRef for the role, it is '#' followed by the label.", "quantifier": "every linkbase, role and locator label", "why_tests_cant": "nested search over arbitrary links; the fall-back is the label itself", "anchors": ["pkg/renderables/concepts.go: mapPLocatorToHref, mapCLocatorToHref, mapDLocatorToHref"]}
{"id": "C81", "title": "A presentation grid shows the arcs of every linkbase of the role", "statement": "The presentation rows of a role cover the arcs of every presentation link declared for that role.", "quantifier": "every set of presentation linkbases", "why_tests_cant": "linkbases are ranged over in map order; all but the first link are dropped", "anchors": ["pkg/renderables/presentationGrid.go: getIndentedLabels"]}
{"id": "C82", "title": "Calculation facts are rendered in the languages offered", "statement": "Every fact shown for a summation item is rendered in exactly the languages the calculation grid offers.", "quantifier": "every folder, calculation link and map order", "why_tests_cant": "the languages change while the items are computed", "anchors": ["pkg/renderables/calculationGrid.go: getSummationItems"]}
{"id": "C83", "title": "An effective domain lists only members of its dimension", "statement": "Every member listed in the effective domain of a dimension is a default of that dimension or belongs to one of its domains.", "quantifier": "every set of definition networks", "why_tests_cant": "all explicit domains are traversed whatever the dimension", "anchors": ["pkg/renderables/effectiveDomainGrid.go: getEffectiveDomain"]}
{"id": "C84", "title": "Members marked default are defaults of the dimension", "statement": "Every member marked default in the effective domain of a dimension, struck through or not, is a default member of that dimension.", "quantifier": "every set of definition networks", "why_tests_cant": "the dimension is compared with the map of members already listed", "anchors": ["pkg/renderables/effectiveDomainGrid.go: getEffectiveDomain"]}
{"id": "C85", "title": "A definition grid shows one root domain per primary item root, rows and columns aligned", "statement": "The root domains are, in order, those of the primary item roots of every definition link of the role; primary items are the pre-order walk below the root with levels, and the effective domain grid has one row for the root and each primary item and one column per effective dimension, each cell the effective domain of that row and column.", "quantifier": "every folder, entity and role", "why_tests_cant": "universal over folders; structural induction over trees", "anchors": ["pkg/renderables/effectiveDomainGrid.go: getRootDomains, getEffectiveDomainGrid, injectFactualQuadrant"]}
{"id": "C86", "title": "Effective dimensions are the targets of hypercube-dimension arcs", "statement": "The effective dimensions of a definition link are, without duplicates, exactly the concepts its hypercube-dimension arcs point to.", "quantifier": "every set of definition linkbases", "why_tests_cant": "locators are looked up in every linkbase of the folder", "anchors": ["pkg/renderables/effectiveDomainGrid.go: getEffectiveDimensions"]}
{"id": "C87", "title": "Units and percents in the text of a numeric fact", "statement": "A fact with decimals whose value is a number shows the digits of the value (of the hundredfold value, with a percent sign, for a percent), before them the symbol of the numerator if it has one, after them the name of a numerator without symbol unless it is a percent, then '/' and the symbol or name of a known denominator; a value that is not a number is shown verbatim, a fact of an unknown concept as 'error'; the English and the Unlabelled text are the same.", "quantifier": "every fact, concept, unit and language", "why_tests_cant": "universal case analysis over symbols, percents and divide units", "anchors": ["pkg/renderables/english.go: renderEnglishFact", "pkg/renderables/spanish.go: renderSpanishFact", "pkg/renderables/fact.go: SigFigs"]}
{"id": "C88", "title": "The expression of a fact is that of the named fact", "statement": "MarshalExpressable answers with an expression only for a name and a context of the inline document; it shows the first fact with the href of the name and with that context, Unlabelled, with its footnotes in order and the labels of its concept; it answers nothing exactly when the name or the context is not in the document or there is no such fact.", "quantifier": "every folder, name and context", "why_tests_cant": "universal over folders and requests", "anchors": ["pkg/renderables/expressable.go: MarshalExpressable"]}
{"id": "C89", "title": "The period of an expression", "statement": "The period of an expression has the raw period under Unlabelled and, unless it is empty, under Truncated, the English (Spanish) text exactly when the period is not empty and the concept has a label in that language, and nothing else.", "quantifier": "every label pack and context", "why_tests_cant": "universal over label packs", "anchors": ["pkg/renderables/contexts.go: periodMultilingualString, appendLanguagePackFromPeriod"]}
{"id": "C90", "title": "A request for an expression does not panic", "statement": "MarshalExpressable returns for every folder, name and context.", "quantifier": "every folder, name, context and map order", "why_tests_cant": "needs folders without inline document, or with several instances and a particular map order", "anchors": ["pkg/renderables/expressable.go: MarshalExpressable", "pkg/renderables/contexts.go: getContext"]}
{"id": "C91", "title": "The dimensions of an expression are those of its context", "statement": "The dimension rows of an expression are the explicit dimensions of its context, in order of their hrefs, followed by its typed dimensions, with one column.", "quantifier": "every folder, name and context", "why_tests_cant": "needs a second context of the concept with a typed dimension", "anchors": ["pkg/renderables/expressable.go: MarshalExpressable", "pkg/renderables/contextualQuadrant.go: getMemberGridAndVoidQuadrant"]}
{"id": "C92", "title": "The parts of a presentation grid share their columns", "statement": "The rows of a presentation grid are those of the presentation network; its period headers, member cells, facts and footnote numbers share one list of columns, and every cell is the fact of its row and column rendered in the languages offered; a language that every label has is offered.", "quantifier": "every folder, entity, role and set of presentation linkbases", "why_tests_cant": "alignment of four independently built tables", "anchors": ["pkg/renderables/presentationGrid.go: pGrid", "pkg/renderables/contextualQuadrant.go: getMemberGridAndVoidQuadrant", "pkg/renderables/factualQuadrant.go: getFactualQuadrant"]}
{"id": "C93", "title": "The parts of every summation item and root domain share their columns", "statement": "For every summation item of a calculation grid and every root domain of a definition grid the period headers, member cells, facts and footnote numbers share one list of columns; the rows of the facts are the contributing concepts and then the item, or the root and then its primary items.", "quantifier": "every folder, entity, role, set of linkbases and map order", "why_tests_cant": "alignment of independently built tables for every item", "anchors": ["pkg/renderables/calculationGrid.go: cGrid", "pkg/renderables/definitionGrid.go: dGrid", "pkg/renderables/effectiveDomainGrid.go: injectFactualQuadrant"]}
{"id": "C94", "title": "Every fact of a row is shown", "statement": "Every fact of a concrete row whose context belongs to the entity is shown in the cell of its row and of the column of its context.", "quantifier": "every folder, grid and fact", "why_tests_cant": "needs folders with facts that differ only in their unit", "anchors": ["pkg/renderables/factualQuadrant.go: getFactualQuadrant", "pkg/hydratables/fact.go: FindFact"]}
{"id": "C95", "title": "A cell shows a fact of its own row and column", "statement": "In the grids of a folder that was discovered on disk and hydrated, every cell that shows a fact shows a fact whose concept is that of the row and whose context is that of the column.", "quantifier": "every folder on disk, schedule, grid and cell", "why_tests_cant": "a statement about all folders, contexts and sort orders", "anchors": ["pkg/renderables/factualQuadrant.go: getFactualQuadrant", "pkg/hydratables/fact.go: FindFact"]}
{"id": "C96", "title": "A renderable has its facts in every language it offers", "statement": "For every language a renderable offers every fact of its presentation grid has a text.", "quantifier": "every folder, role and schedule of the three grids", "why_tests_cant": "the languages depend on the interleaving of three goroutines", "anchors": ["pkg/renderables/renderable.go: MarshalRenderable"]}
{"id": "C97", "title": "Every column of every grid has a header in every offered language", "statement": "In a renderable every column of the presentation grid, of every root domain and of every summation item has the raw period under Unlabelled, the text of that period for every language the renderable offers, and nothing else.", "quantifier": "every folder, role and schedule of the three grids", "why_tests_cant": "the languages depend on the interleaving of three goroutines", "anchors": ["pkg/renderables/renderable.go: MarshalRenderable", "pkg/renderables/formatPeriod.go: formatPeriod", "pkg/renderables/contexts.go: appendLanguagePackFromPeriod"]}
{"id": "C98", "title": "Every fact cell has an Unlabelled text", "statement": "Every cell of the facts of every grid of a renderable has an Unlabelled text.", "quantifier": "every folder, role and schedule", "why_tests_cant": "every grid renders its facts in languages it collects from labels", "anchors": ["pkg/renderables/renderable.go: MarshalRenderable", "pkg/renderables/fact.go: render"]}
{"id": "C99", "title": "Decoding an XML file keeps the elements the code reads, in order", "statement": "A file decodes as an instance, a schema or a linkbase exactly when its root element has that name; the decoded file has the attributes of the root and, in document order, exactly the children with the names of its parts (schema references, contexts, units, footnote links, facts; elements, imports, includes, linkbase references; role references, links, locators, arcs, labels), in any namespace, each with its attributes and text.", "quantifier": "every XML tree", "why_tests_cant": "universal over element trees; depends on the tags of the structs", "anchors": ["pkg/serializables/instanceFile.go: InstanceFile", "pkg/serializables/schemaFile.go: SchemaFile", "pkg/serializables/presentationLinkbaseFile.go: PresentationLinkbaseFile", "pkg/serializables/labelLinkbaseFile.go: LabelLinkbaseFile"]}
{"id": "C100", "title": "Every fact of an instance document is read", "statement": "Every fact element of an instance document, wherever the XBRL specification allows it, is among the facts of the decoded file.", "quantifier": "every instance document", "why_tests_cant": "needs concepts with reserved local names or facts inside tuples", "anchors": ["pkg/serializables/instanceFile.go: InstanceFile"]}
{"id": "C101", "title": "A folder is hydrated whole or not at all", "statement": "Hydrate succeeds exactly when no file has an empty name, every instance is readable, the unit registry is known and the inline document, if any, is readable; the hydrated folder then has one entry for each file of the folder and no others, with the concepts, links, labels, contexts, units, footnotes and facts of that file.", "quantifier": "every folder, registry and map order", "why_tests_cant": "universal over folders", "anchors": ["pkg/hydratables/hydratable.go: Hydrate", "pkg/hydratables/instance.go: HydrateInstance", "pkg/hydratables/schema.go: HydrateSchema"]}
{"id": "C102", "title": "A fact in an instance file is shown under its concept and period", "statement": "When a folder is discovered, hydrated and rendered, a fact of the instance file whose concept is declared in the schema of its namespace (a file of the folder, or a published schema that a file of the folder imports) and not abstract, and whose context belongs to the entity, is shown in every grid that has a row for the concept, in every row of that concept and in a column with the period and the members of that context.", "quantifier": "every folder on disk, schedule, role and grid, facts without a rival of the same concept and context", "why_tests_cant": "end to end: from XML trees through discovery, hydration and lookup to the cells of three grids", "anchors": ["pkg/serializables/folder.go: Discover", "pkg/hydratables/hydratable.go: Hydrate", "pkg/renderables/renderable.go: MarshalRenderable"]}
{"id": "C103", "title": "Only well-formed folder paths reach the cache", "statement": "A GET request for /folders/<id> is answered with the catalog of id, for /folders/<id>/facts with the fact its query names, for /folders/<id>/<hash> with the renderable of hash: 200 with the bytes of the cache or 500 with its error. Here id and hash are non-empty texts without slash other than . and .. . Any other request - other methods, longer, shorter or unclean paths - is answered in the same way whatever the folders contain.", "quantifier": "every method, path, query and cache content", "why_tests_cant": "universal over paths; routing is done by a library", "anchors": ["internal/web/web.go: NewRouter", "internal/web/web.go: Catalog", "internal/web/web.go: Renderable", "internal/web/web.go: Expressable"]}
{"id": "C104", "title": "A folder id names a directory of its own directly below folders", "statement": "For every id a request can carry, the folder read is the directory of that name directly below the folders directory of the working directory, its entry file is the file _ in it, and different ids name different directories.", "quantifier": "every working directory and every id a request can carry", "why_tests_cant": "universal over ids, including ones with dots", "anchors": ["pkg/serializables/folder.go: Discover", "pkg/serializables/underscore.go: GetEntryFileName"]}
{"id": "C105", "title": "Discovering a folder reads only files of that folder", "statement": "What Discover finds in a folder depends only on the files inside the directory of that folder (and on the global taxonomy): the contents of other folders have no influence.", "quantifier": "every folder and file system", "why_tests_cant": "needs adversarial references", "anchors": ["pkg/serializables/folder.go: Discover", "pkg/serializables/folder.go: importSchema", "pkg/serializables/instanceFile.go: ReadInstanceFile"]}
{"id": "C106", "title": "Image files of a folder are shown in its document, byte for byte", "statement": "The images of a folder are exactly its readable files that start like JPEG or PNG files, each under its name as a data URL of that type that decodes (RFC 4648) to exactly the bytes of the file. In the document, img elements whose source has the name of such a file show it; no other attribute changes.", "quantifier": "every directory and every document tree", "why_tests_cant": "universal over byte strings and trees", "anchors": ["pkg/serializables/folder.go: processImages", "pkg/serializables/image.go: TransformInlineImages"]}
{"id": "C107", "title": "Every inline fact of a document is known after loading", "statement": "For every inline fact element (ix:nonNumeric, ix:nonFraction, ix:fraction) of an inline document, its name, resolved by the namespace declarations in scope, and its context are known after the document is hydrated.", "quantifier": "every document tree and schedule of the goroutines", "why_tests_cant": "needs fractions and declarations on inner elements; universal over trees", "anchors": ["pkg/serializables/document.go: DecodeIxbrlFile", "pkg/hydratables/document.go: HydrateDocument"]}
{"id": "C108", "title": "The catalog lists what the files of the folder say", "statement": "The catalog of a folder on disk has as subjects exactly the entities named by the contexts of its instance file (contexts with an id; first identifier of the first entity), as relationship sets exactly the roles declared in the first appinfo of the first annotation of the schema files reachable from the instance, a slug for every pair of these and no other, and as document name the entry file name iff that is an inline document.", "quantifier": "every folder on disk that loads and every schedule of discovery", "why_tests_cant": "end to end: from XML trees through discovery and hydration to the catalog", "anchors": ["pkg/renderables/catalog.go: MarshalCatalog", "pkg/serializables/folder.go: Discover", "pkg/hydratables/hydratable.go: Hydrate"]}
{"id": "C109", "title": "JSON written can only be read as what was written", "statement": "What is written for a value is a JSON text by the grammar of RFC 8259, and the only value it denotes is the one written; it contains no control character, none of <, >, & and no line separator. The reader accepts exactly the texts of the grammar.", "quantifier": "every value and every text", "why_tests_cant": "universal over all strings and nesting; the reader's exactness is a statement about all texts", "anchors": ["pkg/renderables/catalog.go: MarshalCatalog", "pkg/serializables/underscore.go: NewFolder"]}
{"id": "C110", "title": "The catalog's JSON is determined by the catalog", "statement": "The bytes of the catalog response do not depend on the iteration order of any Go map, and whoever reads them as JSON finds the subjects and relationship sets in order, the document name, and for every entity and role exactly the slug of the catalog.", "quantifier": "every catalog and every iteration order", "why_tests_cant": "iteration orders of Go maps are random; names may contain any characters", "anchors": ["pkg/renderables/catalog.go: MarshalCatalog"]}
{"id": "C111", "title": "The entry file of a folder survives crashes and restarts", "statement": "After NewFolder succeeds, GetEntryFileName returns the entry file name given to it; if the process died while writing the metadata, it returns an error or that name, never a part of it. A metadata file is accepted exactly if it is a JSON text that is null or an object with strings or null for its entry and note.", "quantifier": "every entry name, every interleaving of calls and every point of a crash", "why_tests_cant": "needs crashes after every byte, in the middle of a multi-byte character as well", "anchors": ["pkg/serializables/underscore.go: NewFolder", "pkg/serializables/underscore.go: GetEntryFileName"]}
{"id": "C112", "title": "Entity names come from names.json", "statement": "names.json is accepted exactly if it is a JSON object of objects of strings (null allowed); the name of an entity is then the one registered for its scheme and identifier, the last one of equal members, and scheme/identifier if there is none.", "quantifier": "every file content, scheme and identifier", "why_tests_cant": "universal over all texts, including repeated members and nulls", "anchors": ["pkg/hydratables/query.go: EntityQuery", "pkg/serializables/global.go: names.json"]}
{"id": "C113", "title": "What counts as a URL", "statement": "IsValidUrl accepts a text exactly if it is an absolute URL: printable, a scheme, ://, an authority with a host (name, or address in brackets with an optional zone; port of digits; user information), an optional path, query and fragment with correct percent escapes, and a path or query before any fragment. Scheme, host name and path used for the file name are determined by the text: the scheme in lower case, the host without port and brackets, the decoded path.", "quantifier": "every text", "why_tests_cant": "universal over all texts with escapes in every part", "anchors": ["pkg/attr/url.go: IsValidUrl", "pkg/serializables/global.go: UrlToFilename"]}
{"id": "C114", "title": "What is looked up as a URL has a file name", "statement": "Every reference that IsValidUrl takes for a URL, and that is therefore looked for among the shared taxonomies, has a file name there.", "quantifier": "every text", "why_tests_cant": "universal over all texts; the two functions look at different parts of the URL", "anchors": ["pkg/attr/url.go: IsValidUrl", "pkg/serializables/global.go: UrlToFilename"]}
{"id": "C115", "title": "Spellings of a URL share a file", "statement": "Two URLs without dot segments have the same file exactly if their schemes agree up to case, their host names agree, and their decoded paths have the same non-empty segments; port, user information, query and fragment do not count. A file is in the directory for taxonomies unless the decoded path climbs out of it.", "quantifier": "every two URLs", "why_tests_cant": "universal over pairs of texts", "anchors": ["pkg/serializables/global.go: UrlToFilename"]}
{"id": "C116", "title": "The JSON of a renderable has everything of the grids in its place", "statement": "The bytes of a renderable response are one JSON text. Whoever reads it finds the relationship set and the subject, the languages and label roles, and the presentation, definition and calculation grids with every row, header, member, fact text, footnote number and footnote at the position it has in the grid; a cell of the factual quadrant is never null.", "quantifier": "every folder, entity, role and map iteration order", "why_tests_cant": "labels, members and facts may hold any characters; absent parts are left out or null in ways that depend on Go's encoder", "anchors": ["pkg/renderables/renderable.go: MarshalRenderable"]}
{"id": "C117", "title": "The JSON of an expression has everything of the fact", "statement": "The bytes of an expression response are one JSON text in which the client finds the concept, its labels, the period texts, the members with their dimensions, the texts of the fact and its footnotes.", "quantifier": "every folder, fact and map iteration order", "why_tests_cant": "values may hold any characters; universal over all facts", "anchors": ["pkg/renderables/expressable.go: MarshalExpressable"]}
{"id": "C118", "title": "From the files of a folder to the bytes that are served", "statement": "A fact without decimals that the instance file of a folder reports for a concept that is not a text block is found by whoever reads the renderable response: in every grid with a row for its concept, in every such row, in a column with the period of its context and only with members of its context, the text is the content of the element in the instance file, or nil if the element is nil.", "quantifier": "every folder on disk, every fact of its instance, every schedule of the goroutines and map iteration order", "why_tests_cant": "composes discovery, hydration, lookup, grids and the encoder; no test can enumerate folders", "anchors": ["pkg/serializables/folder.go: Discover", "pkg/hydratables/hydratable.go: Hydrate", "pkg/renderables/renderable.go: MarshalRenderable"]}
{"id": "C119", "title": "XML files are read as what their text says", "statement": "A file is read exactly if its text is an XML document in the grammar of the specification, and what is read is its root element: names with the namespaces declared for their prefixes, attributes in order with their values (references resolved, line ends normalised), texts and elements inside in order. A text is at most one document.", "quantifier": "every text", "why_tests_cant": "universal over all texts and nesting of markup; acceptance is an iff", "anchors": ["pkg/serializables/instanceFile.go: DecodeInstanceFile", "pkg/serializables/schemaFile.go: DecodeSchemaFile", "pkg/serializables/presentationLinkbaseFile.go: DecodePresentationLinkbaseFile"]}
{"id": "C120", "title": "Only XML documents are read", "statement": "A file is read only if it is a namespace-well-formed XML document: nothing but comments, instructions and white space around the root element, no attribute twice, no undeclared prefix.", "quantifier": "every text", "why_tests_cant": "universal over all texts", "anchors": ["pkg/serializables/instanceFile.go: DecodeInstanceFile", "pkg/serializables/schemaFile.go: DecodeSchemaFile"]}
{"id": "C121", "title": "Loading a folder comes to an end", "statement": "Whatever the texts of the files in a folder, loading it comes to an end.", "quantifier": "every folder of texts and every schedule", "why_tests_cant": "non-termination for particular texts; universal over all texts", "anchors": ["pkg/hydratables/instance.go: hydrateContexts", "pkg/hydratables/hydratable.go: Hydrate"]}
{"id": "C122", "title": "Only the value of a fact matters", "statement": "Facts with the same value are shown with the same text, namely that value, however they are written in the file (references, CDATA sections, comments, line ends).", "quantifier": "every text of an instance file", "why_tests_cant": "universal over all ways of writing a value", "anchors": ["pkg/serializables/instanceFile.go: DecodeInstanceFile", "pkg/renderables/factualQuadrant.go: render"]}
{"id": "C123", "title": "From the texts of the files to the bytes that are served", "statement": "A fact without decimals, written without markup, references and carriage returns in the text of the instance file, for a concept that is not a text block, is found with its value by whoever reads the renderable response, in every grid with a row for its concept.", "quantifier": "every folder of texts, fact, schedule of the goroutines and map iteration order", "why_tests_cant": "composes the XML decoder, discovery, hydration, lookup, grids and the JSON encoder", "anchors": ["pkg/serializables/folder.go: Discover", "pkg/hydratables/hydratable.go: Hydrate", "pkg/renderables/renderable.go: MarshalRenderable"]}
{"id": "C124", "title": "A client that follows a slug of the catalog gets the network it was advertised for", "statement": "Through the cache, in every history: all catalogs served for a folder are the same bytes, and advertise exactly the networks that its files have; a request for an advertised slug is never answered with an error, and what is served is a JSON text about the entity and role the slug was advertised for, in which the facts of the instance file are found as in C118.", "quantifier": "every site, every history of concurrent calls, with and without caching, every schedule and map order", "why_tests_cant": "composes concurrency in the cache with loading, listing, rendering and encoding; the calls load the folder anew with other schedules", "anchors": ["pkg/cache/cache.go: MarshalCatalog", "pkg/cache/cache.go: MarshalRenderable", "pkg/renderables/catalog.go: MarshalCatalog", "pkg/renderables/renderable.go: MarshalRenderable"]}
{"id": "C125", "title": "The same over HTTP", "statement": "GET /folders/{id} always has the same body if it has status 200 and a body; GET /folders/{id}/{slug} with a slug from that body has status 200 and, as body, one JSON text about the entity and role the slug was advertised for, in which the facts of the instance file are found as in C118.", "quantifier": "every site, folder, history of concurrent requests", "why_tests_cant": "composes routing and handlers with C124", "anchors": ["internal/web/web.go: NewRouter", "internal/web/web.go: Catalog", "internal/web/web.go: Renderable"]}
{"id": "C126", "title": "Prohibited relationships are not shown", "statement": "A relationship is hydrated exactly if it is in force in the sense of XBRL 2.1: an arc states it, and no prohibiting arc of the same relationship has the same or a higher priority.", "quantifier": "every list of extended links", "why_tests_cant": "depends on pairs of arcs anywhere in the file; universal over all files", "anchors": ["pkg/hydratables/presentationLinkbase.go: hydratePresentationLink", "pkg/hydratables/calculationLinkbase.go: hydrateCalculationLink", "pkg/hydratables/definitionLinkbase.go: hydrateDefinitionLink"]}
{"id": "C127", "title": "Arcs connect the concepts of the locators in their own link", "statement": "The label at the end of an arc stands for the concept that the locator of that label in the same extended link points at, whatever other links of the role do with the label.", "quantifier": "every file with any number of links of a role", "why_tests_cant": "only shows with two links of a role; universal over all files", "anchors": ["pkg/renderables/concepts.go: mapPLocatorToHref", "pkg/hydratables/presentationLinkbase.go: hydratePresentationLink"]}
{"id": "C128", "title": "Presentations show the preferred labels", "statement": "The row of a concept in a presentation is shown with the label that its arc prefers.", "quantifier": "every presentation linkbase", "why_tests_cant": "independence from an attribute for all files", "anchors": ["pkg/renderables/presentationGrid.go: getIndentedLabels"]}
{"id": "C129", "title": "Primary items inherit hypercubes", "statement": "The effective domain of a primary item is that of the hypercubes it has itself or that an item above it in the domain-member tree has.", "quantifier": "every definition network", "why_tests_cant": "universal over all trees", "anchors": ["pkg/renderables/effectiveDomainGrid.go: getEffectiveDomain"]}
{"id": "C130", "title": "Members that are not usable are not listed", "statement": "A member whose domain-member arc has usable=false is not listed in effective domains.", "quantifier": "every definition linkbase, folder, schedule and map iteration order", "why_tests_cant": "independence from an attribute for all files", "anchors": ["pkg/renderables/effectiveDomainGrid.go: getEffectiveDomain", "pkg/hydratables/definitionLinkbase.go: hydrateDefinitionLink"]}
{"id": "C131", "title": "Relationships are continued in the target role", "statement": "If an arc has a target role, the relationships that follow it are taken from the links of that role; the ends of the arc are the concepts of the locators in its own link.", "quantifier": "every definition linkbase, folder, schedule and map iteration order", "why_tests_cant": "only shows with networks across several roles; universal over all files", "anchors": ["pkg/renderables/effectiveDomainGrid.go: getEffectiveDomainGrid", "pkg/renderables/dimensionRelationshipSet.go: getDRS"]}
{"id": "C132", "title": "The rows of a presentation are the arcs of its links", "statement": "For every parent-child arc in the links of the role there are a row of its source and, further down, one level deeper and with only rows below the source in between, a row of its target. Conversely every row is outermost, and the source but not the target of an arc, or it is the target of an arc whose source is the row it belongs to.", "quantifier": "every presentation linkbase without cycles whose labels stand for one concept each", "why_tests_cant": "composes hydration of attributes, merging of links, the tree and the walk; universal over all networks", "anchors": ["pkg/renderables/presentationGrid.go: getIndentedLabels", "pkg/hydratables/presentationLinkbase.go: hydratePresentationLink", "internal/graph/graph.go: Tree"]}
{"id": "C133", "title": "The expression of a fact is that of the file", "statement": "GET /folders/{id}/facts for the name and context of a text or number fact of the inline document: if the folder can be loaded and the fact is reported in the instance, the answer has status 200 and is one JSON text with the concept of the name, the text that the instance file has for the fact, the period of its context as written, and no members but those of its context. Names and contexts that the document does not use get no bytes.", "quantifier": "every site, folder, history of concurrent requests; facts without decimals that are not text blocks", "why_tests_cant": "composes discovery, hydration, expression, JSON, cache and HTTP", "anchors": ["pkg/renderables/expressable.go: MarshalExpressable", "pkg/cache/cache.go: MarshalExpressable", "internal/web/web.go: Expressable", "pkg/hydratables/document.go: HydrateDocument"]}
{"id": "C134", "title": "Arcs need no order", "statement": "A relationship is hydrated whether or not its arc has the attribute order, which is optional in XBRL 2.1 and is 1 if missing.", "quantifier": "every list of extended links", "why_tests_cant": "universal over all files", "anchors": ["pkg/hydratables/presentationLinkbase.go: hydratePresentationLink", "pkg/hydratables/calculationLinkbase.go: hydrateCalculationLink", "pkg/hydratables/definitionLinkbase.go: hydrateDefinitionLink", "pkg/hydratables/labelLinkbase.go: hydrateLabelLink"]}
{"id": "C135", "title": "The document of a folder is served as it is on disk, with its images", "statement": "GET /folders/{id}/{entry} for an inline entry: if the folder can be loaded, the answer has status 200. The body is the entry file byte for byte if the folder has no JPEG or PNG file; otherwise it is the rendering of the parsed file in which exactly the sources that name such a file of the folder are replaced by data URLs for its bytes. It is the same in every run. Under /folders/{id}/ nothing is served but the inline entry, the slugs of the folder and facts.", "quantifier": "every site, folder, history of concurrent requests; HTML parser and writer arbitrary", "why_tests_cant": "composes discovery, embedding of images, cache and HTTP", "anchors": ["pkg/cache/cache.go: MarshalRenderable", "pkg/serializables/folder.go: Discover processImages", "pkg/serializables/image.go: TransformInlineImages", "internal/web/web.go: Renderable"]}
{"id": "C136", "title": "Members of a dimension are listed however many hypercubes have it", "statement": "If a primary item has a hypercube with a dimension, the default of the dimension and the members of its domain are listed for the item and not struck through, also if the item has several hypercubes with the dimension.", "quantifier": "every definition network", "why_tests_cant": "only shows with several hypercubes; universal over all networks", "anchors": ["pkg/renderables/effectiveDomainGrid.go: getEffectiveDomain"]}
{"id": "C137", "title": "A folder uses all linkbases it refers to", "statement": "Every linkbase of the folder that a linkbaseRef of the instance or of a schema in reach refers to is in the folder, under its role, or under every role if the reference has none, as XBRL 2.1 allows.", "quantifier": "every folder and schedule of discovery", "why_tests_cant": "universal over all folders and schedules", "anchors": ["pkg/serializables/folder.go: linkbaseRefSchema", "pkg/serializables/instanceFile.go: DecodeInstanceFile"]}
{"id": "C138", "title": "Contexts have the members of their elements", "statement": "Every explicit member of the segment or scenario of a context whose dimension and value name declared concepts is a member of the hydrated context; white space around the names does not count, and prefixes may be declared on any element around the member.", "quantifier": "every instance", "why_tests_cant": "universal over all instances", "anchors": ["pkg/hydratables/instance.go: hydrateContexts"]}
{"id": "C139", "title": "The order of the columns depends only on what they are", "statement": "If the facts of an instance are written in another order, the columns of a grid and their order are the same.", "quantifier": "every folder and permutation of its facts", "why_tests_cant": "universal over all permutations", "anchors": ["pkg/renderables/contexts.go: sortContexts getRelevantContexts"]}
{"id": "C140", "title": "The items of a calculation are the arcs of its links", "statement": "For every summation-item arc in the links of the role with known concepts there is an item of its source with a contribution of its target, with the sign of the weight of the arc and the weight to the nearest tenth. Conversely every item is the source of such an arc and every contribution the target of one, with that sign and scale.", "quantifier": "every calculation linkbase whose labels stand for one concept each", "why_tests_cant": "composes hydration of attributes, merging of links and collection of items; universal over all networks", "anchors": ["pkg/renderables/calculationGrid.go: getSummationItems", "pkg/hydratables/calculationLinkbase.go: hydrateCalculationLink"]}
{"id": "C141", "title": "Durations of whole months are shown by their number of months", "statement": "If a context lasts from the first day of a calendar month to the last day of a calendar month, the English header of its column is the number of months it lasts and the date it ends.", "quantifier": "every pair of calendar dates", "why_tests_cant": "depends on the length of months and years; universal over all dates", "anchors": ["pkg/renderables/formatPeriod.go: formatDate"]}
{"id": "C142", "title": "Different durations have different English headers", "statement": "Two contexts with different durations have different English period headers.", "quantifier": "every two pairs of calendar dates", "why_tests_cant": "relational over all pairs of durations", "anchors": ["pkg/renderables/formatPeriod.go: formatDate"]}
{"id": "C143", "title": "Children are in the numeric order of the order attributes", "statement": "Of two parent-child arcs with the same source, the target of the one whose order attribute is the smaller number is shown first below the source, however the numbers are written.", "quantifier": "every presentation linkbase without cycles whose labels stand for one concept each, and all decimal numbers", "why_tests_cant": "composes decimal rounding, hydration, the tree and the walk; universal over all numbers", "anchors": ["pkg/hydratables/presentationLinkbase.go: hydratePresentationLink", "pkg/renderables/presentationGrid.go: getIndentedLabels"]}
{"id": "C144", "title": "Contributions are shown with the number in the weight attribute", "statement": "The target of a summation-item arc is shown with a minus iff the number in the weight attribute is negative, and with its absolute value to the nearest tenth, however the number is written.", "quantifier": "every calculation linkbase whose labels stand for one concept each, and all decimal numbers", "why_tests_cant": "composes decimal rounding twice, hydration and collection of items; universal over all numbers", "anchors": ["pkg/hydratables/calculationLinkbase.go: hydrateCalculationLink", "pkg/renderables/calculationGrid.go: getSummationItems"]}
{"id": "C145", "title": "Every typed member of a column is shown", "statement": "In a member grid, for every typed dimension of the shown contexts there is a row that names the dimension and its typed domain, and the cell of a column in that row shows the text that the context of the column has for the dimension.", "quantifier": "every set of contexts, typed and explicit members, columns and orders of the maps", "why_tests_cant": "the rows come from trees of labels that are built, merged and walked over all contexts; universal over contexts and map orders", "anchors": ["pkg/renderables/contexts.go: getContextualMembers", "pkg/renderables/contextualQuadrant.go: getMemberGridAndVoidQuadrant reduceTrees", "pkg/renderables/typedMember.go: getTypedMember"]}
{"id": "C146", "title": "Labels in grids are the labels of the linkbases on disk", "statement": "Wherever a concept stands in a grid (row, column, root domain, primary item, effective member or dimension, node, total or contribution), its texts are its href, the fragment of the href, and labels that a label linkbase referred to by a schema of the folder gives the concept; in every known role and language in which the linkbases give it a label, one is shown.", "quantifier": "every folder on disk, every order of discovery, map iteration and goroutines, and every place of every grid", "why_tests_cant": "composes discovery, XML decoding, hydration, label lookup and all three grids; universal over folders and orders", "anchors": ["pkg/renderables/label.go: GetLabel", "pkg/hydratables/labelLinkbase.go: hydrateLabelLink", "pkg/renderables/renderable.go: MarshalRenderable"]}
{"id": "C147", "title": "An instance may refer to published schemas", "statement": "The facts of an instance whose concepts are declared in a published schema that the instance or a schema of the folder refers to by URL are read, and the roles of the schemas that the instance refers to are listed in the catalog.", "quantifier": "every folder on disk, every published schema, every schedule of discovery", "why_tests_cant": "universal over folders, schemas and schedules; tests have no network", "anchors": ["pkg/serializables/folder.go: schemaRef", "pkg/serializables/global.go: DiscoverGlobalSchema", "pkg/hydratables/query.go: NameQuery"]}
{"id": "C148", "title": "A namespace may be spread over several schema files", "statement": "When the schema of a namespace includes further files of the same namespace, the facts of all concepts that these files declare are read.", "quantifier": "every folder on disk and every schedule of discovery", "why_tests_cant": "universal over folders and over the order in which the goroutines record the location of the namespace", "anchors": ["pkg/serializables/folder.go: includeSchema", "pkg/hydratables/query.go: NameQuery"]}
{"id": "C149", "title": "A row shows the facts of the concept its locator points at", "statement": "A row of a grid shows the facts of the concept that its reference points at, however the reference spells the location of the schema (./x.xsd, escapes, paths relative to the linkbase).", "quantifier": "every folder on disk, every reference, every grid", "why_tests_cant": "universal over references and grids; composes discovery, hydration and lookup", "anchors": ["pkg/hydratables/fact.go: FindFact", "pkg/hydratables/query.go: NameQuery", "pkg/hydratables/query.go: HashQuery"]}
{"id": "C150", "title": "No two columns of a grid say the same", "statement": "Contexts of an instance with the same entity, period and members share one column in a grid.", "quantifier": "every folder, entity and grid", "why_tests_cant": "universal over instances; tests use instances without equal contexts", "anchors": ["pkg/renderables/contexts.go: getRelevantContexts"]}
{"id": "C151", "title": "Labels of published linkbases are shown", "statement": "A label that a label linkbase referred to by a schema of the folder gives a concept is shown wherever the concept stands in a grid, also when the linkbase is published and referred to by URL.", "quantifier": "every folder on disk, every published linkbase, every grid", "why_tests_cant": "universal over folders and linkbases; tests have no network", "anchors": ["pkg/serializables/folder.go: linkbaseRefSchema", "pkg/serializables/global.go: DiscoverGlobalFile", "pkg/renderables/label.go: GetLabel"]}
{"id": "C152", "title": "Numbers are shown with the units of the instance on disk", "statement": "A client that follows the catalog of a server finds every number of the instance on disk, wherever it is shown, with the unit that its unitRef names: the symbol that the unit registry has for the measure before the digits or, without a symbol, its name after them; for a unit that divides, the numerator and the denominator.", "quantifier": "every site, every folder, every registry, every history of requests, every grid, every order of maps", "why_tests_cant": "universal over files, histories and orders; tests read samples and do not follow a value from the file to the answer", "anchors": ["pkg/hydratables/measurement.go: FindMeasurement", "pkg/hydratables/measurement.go: queryUTR", "pkg/renderables/english.go: renderEnglishFact", "pkg/renderables/factualQuadrant.go: getFactualQuadrant"]}
{"id": "C153", "title": "Footnotes of the instance on disk reach the client, with the right numbers", "statement": "A client that follows the catalog of a server finds beside every fact of the instance on disk, wherever it is shown, the numbers of the footnotes that the footnote links connect to the fact: the text with that number is the footnote's, and there are no other numbers.", "quantifier": "every site, every folder, every history of requests, every grid, every order of maps", "why_tests_cant": "universal over files, histories and the orders in which Go ranges over maps; a test sees one order per run", "anchors": ["pkg/hydratables/fact.go: GetFootnotes", "pkg/renderables/factualQuadrant.go: getFactualQuadrant", "pkg/hydratables/instance.go: hydrateFootnoteLinks"]}
{"id": "C154", "title": "A request cannot bring the server down", "statement": "Whatever the files of a folder contain, a request about it does not end the server process: at most that request fails, and other folders are still served.", "quantifier": "every site, every folder, every request, every schedule of the goroutines", "why_tests_cant": "universal over files and schedules; a test process that ends reports nothing about the other folders", "anchors": ["pkg/renderables/renderable.go: MarshalRenderable", "pkg/hydratables/document.go: HydrateDocument", "pkg/cache/cache.go: MarshalRenderable", "internal/web/web.go: Renderable"]}
{"id": "C155", "title": "Caching can be switched off", "statement": "A program that sets the packages up with NewCache(true) answers requests about folders as one that sets them up with NewCache(false) does, only without keeping the answers; the server of cmd/telefacts sees all published files.", "quantifier": "every sequence of calls of NewCache and InjectCache, every site, every folder, every history of requests", "why_tests_cant": "universal over set-ups and histories; the tests inject a cache of their own", "anchors": ["pkg/cache/cache.go: NewCache", "pkg/hydratables/global.go: InjectCache", "pkg/hydratables/global.go: HydrateGlobalSchema", "pkg/hydratables/measurement.go: HydrateUnitTypeRegistry", "cmd/telefacts/main.go: setupServer"]}
{"id": "C156", "title": "A percentage is formatted as a hundred times its value", "statement": "A fact of the type percentItemType whose value is a decimal number is shown with a percent sign and the digits of exactly a hundred times its value, to two decimals less than its decimals attribute says.", "quantifier": "every decimal text, every accuracy of the big floats, every formatter of digits", "why_tests_cant": "universal over numbers and over the precision that the package digits sets; a test checks single values, most of which are rounded to what is expected", "anchors": ["pkg/renderables/fact.go: SigFigs", "pkg/renderables/fact.go: renderPercent", "pkg/renderables/fact.go: renderNumeric", "pkg/renderables/english.go: renderEnglishFact", "pkg/renderables/spanish.go: renderSpanishFact"]}
{"id": "C157", "title": "Working directory and published taxonomies are not served as files", "statement": "Without the environment variables WD and GTS no request makes the file server open anything inside the working directory or the directory of published taxonomies; with absolute paths in them it does so exactly if those directories are below or above the directory goldlord-midas of the place where the server was started.", "quantifier": "every method, every rooted path, every directory the server is started in, every absolute WD and GTS", "why_tests_cant": "universal over paths, dots and slashes included, and over set-ups; a test tries some paths in one directory", "anchors": ["cmd/telefacts/main.go: setupServer", "internal/web/web.go: NewRouter"]}
{"id": "C158", "title": "Requests for what is not there leave nothing in the cache", "statement": "A request whose answer is an error leaves the cache as large as it was.", "quantifier": "every sequence of requests by every number of clients, every folder", "why_tests_cant": "a statement about all histories of a shared map; a test sees one entry, not that none ever goes away", "anchors": ["pkg/cache/cache.go: MarshalExpressable, MarshalRenderable, MarshalCatalog, hydratable"]}
{"id": "C159", "title": "The tables of a text block are shown with their rows and cells", "statement": "A table in a text block is shown with the same rows and cells; a cell takes as many columns as it spans and its text is between its tags.", "quantifier": "every table, nested or not, with every attribute", "why_tests_cant": "universal over markup; a test has a few tables", "anchors": ["pkg/renderables/textBlock.go: renderTextBlock, colSpanHelper, colSpan2Helper"]}
{"id": "C160", "title": "A text block is shown in about the size it has in the filing", "statement": "The number of pieces shown for a text block is at most a constant times the number of its tokens.", "quantifier": "every text block", "why_tests_cant": "a bound for all inputs; the inputs that break it are not in filings that tests use", "anchors": ["pkg/renderables/textBlock.go: renderTextBlock, colSpanHelper"]}
{"id": "C161", "title": "However the date of a context is written, its column is headed by it", "statement": "A context at a date, written in any way that XML Schema allows for a date, is headed by that date in words; a context for ever has a header.", "quantifier": "every date, all white space around it and every time zone", "why_tests_cant": "universal over the lexical forms of dates; tests have dates in one form", "anchors": ["pkg/renderables/formatPeriod.go: formatDate", "pkg/renderables/contexts.go: periodString", "pkg/hydratables/instance.go: hydrateContexts"]}
{"id": "C162", "title": "Discovering a folder reads each of its schema files once", "statement": "However the schema files of a folder refer to each other, Discover reads each of them once, so the work is proportional to the size of the folder.", "quantifier": "every folder whose references are not endless", "why_tests_cant": "universal over reference graphs; the number of reads grows exponentially only in graphs that tests do not have", "anchors": ["pkg/serializables/folder.go: schemaRef, includeSchema, importSchema"]}
{"id": "C163", "title": "A reference in a file of a folder means the file it names from there", "statement": "For a schema or linkbase reference in a file of the folder, the file that is read is the one that the reference names relative to the file it is written in.", "quantifier": "every folder, every file in it and every relative reference", "why_tests_cant": "universal over paths and directory trees; tests have flat folders", "anchors": ["pkg/serializables/folder.go: schemaRef, includeSchema, importSchema, linkbaseRefSchema"]}
{"id": "C164", "title": "Prefixes are only abbreviations", "statement": "Reports whose instances differ only in the prefixes they use (and what the root declares them for) get the same answers to all requests.", "quantifier": "every site, every request and every choice of prefixes", "why_tests_cant": "universal over namespace declarations; tests have the usual prefixes", "anchors": ["pkg/attr/attr.go: Xmlns", "pkg/hydratables/instance.go: hydrateContexts, hydrateTypedMembers, hydrateUnits"]}
{"id": "C165", "title": "The order of the elements of an instance does not matter", "statement": "If the elements of an instance are put in another order, the answers to all requests stay the same.", "quantifier": "every site, every request and every order", "why_tests_cant": "universal over permutations; a test has one order", "anchors": ["pkg/hydratables/instance.go: hydrateContexts, hydrateUnits, hydrateFacts", "pkg/hydratables/fact.go: FindFact"]}
{"id": "C166", "title": "Typed members may declare their namespaces themselves", "statement": "The value of a typed member is read whether the namespace of its domain element is declared on the root of the instance or on that element.", "quantifier": "every instance, dimension, namespace and value", "why_tests_cant": "tests have instances whose root declares everything", "anchors": ["pkg/hydratables/instance.go: hydrateTypedMembers", "pkg/attr/attr.go: Xmlns"]}
{"id": "C167", "title": "A cell of a grid says what the expression of its fact says", "statement": "The text and the period that the expression of a fact shows, and whether it has footnotes, are those of every cell of a grid for the same concept and context. So are its members, unless two of the context belong in one row, and so are the texts of its footnotes, unless two footnotes with the same identity have different texts. Its labels are those of its row. (If the folder has several label linkbases, this is for answers that take them in the same order; see C176.)", "quantifier": "every loaded folder, every fact, every grid and all orders of maps and schedules", "why_tests_cant": "relates two endpoints with separate code over all folders; tests look at one endpoint and one order", "anchors": ["pkg/renderables/expressable.go: MarshalExpressable", "pkg/renderables/factualQuadrant.go: getFactualQuadrant", "pkg/renderables/fact.go: render", "pkg/renderables/contexts.go: getRelevantContexts, getContextualMembers, periodString"]}
{"id": "C168", "title": "A folder is answered for as if there were no other", "statement": "The answers about a folder do not depend on the other folders of the server, nor on what is asked about them.", "quantifier": "all servers that have the folder, with any other folders and any history of requests", "why_tests_cant": "universal over the other folders and over interleavings of requests", "anchors": ["pkg/cache/cache.go: MarshalCatalog, MarshalRenderable, MarshalExpressable, hydratable", "pkg/serializables/folder.go: Discover"]}
{"id": "C169", "title": "Files that nothing refers to do not matter", "statement": "Two servers whose folders have the same files under the names that their entries lead to, through schema and linkbase references, behave in the same way whatever other files there are.", "quantifier": "all sites and all further files, every request and every history", "why_tests_cant": "universal over the files of a directory; tests have folders without further files", "anchors": ["pkg/serializables/folder.go: Discover, schemaRef, includeSchema, importSchema, linkbaseRefSchema, processImages", "pkg/serializables/image.go: TransformInlineImages"]}
{"id": "C170", "title": "Names that differ in one place are told apart", "statement": "Networks whose entity, role URI or definition differ only within ten consecutive bytes have different slugs, and a slug leads to its own network; requests for facts whose name and context differ only so never share a cache entry.", "quantifier": "all texts of any length with any difference of that kind", "why_tests_cant": "the hash has 2^128 values and the texts are unbounded; tests compare a few", "anchors": ["pkg/renderables/catalog.go: hash", "pkg/cache/cache.go: MarshalExpressable", "pkg/renderables/renderable.go: MarshalRenderable"]}
{"id": "C171", "title": "Clients that follow the catalog find exactly the relationships of the linkbases", "statement": "A client that asks for a network that the catalog lists finds every arc of that role: the child of a presentation arc as a row below that of its parent, the summand of a calculation arc under its total with the sign and the scale of its weight, and a definition arc as a link between its two concepts; and it finds no row, summand or link without such an arc. This is for roles that one linkbase of the kind holds, without cycles, and labels that stand for one concept, which for summands has to be known.", "quantifier": "all sites, folders, roles and arcs, all orders of maps, all histories of requests", "why_tests_cant": "covers decoding, discovery, hydration, rendering, JSON and the cache at once for unbounded linkbases; tests look at one stage", "anchors": ["pkg/cache/cache.go: MarshalCatalog, MarshalRenderable", "pkg/renderables/renderable.go: MarshalRenderable", "pkg/renderables/presentationGrid.go: pGrid, getIndentedLabels", "pkg/renderables/definitionGrid.go: dGrid", "pkg/renderables/dimensionRelationshipSet.go: getDRS", "pkg/renderables/calculationGrid.go: cGrid, getSummationItems", "pkg/hydratables/calculationLinkbase.go: hydrateCalculationLink"]}
{"id": "C172", "title": "A corrected file of a folder shows in the answers", "statement": "When the files of a folder are changed while the server runs, answers to calls that arrive after the change are those of the changed files. (This is false of the code, with caching on: a folder that has been answered about keeps the version it had then, and a folder that could not be loaded at first makes every later call panic, although its files have been corrected. It holds for folders that were not there before the change or that nobody had asked about, and for all folders when caching is switched off.)", "quantifier": "all folders, versions of the files, sets of calls and interleavings of calls and background writes", "why_tests_cant": "the cache never expires and is written in the background; a test that changes a file sees one schedule and one folder", "anchors": ["pkg/cache/cache.go: NewCache, hydratable, MarshalCatalog, MarshalRenderable, MarshalExpressable"]}
{"id": "C173", "title": "All answers about a folder are from one version of its files", "statement": "However the files of a folder change while the server runs, all successful answers about it are of one version of the files. (This is false of the code: if the files change after an answer was given and before it was written to the cache, the catalog stays that of the old version and the networks are those of the new one. It holds, for any number of changes, if each happens when no call is in progress and no write is outstanding.)", "quantifier": "all numbers of versions, all folders, all interleavings", "why_tests_cant": "needs a change between an answer and the goroutine that stores it; tests do not control that schedule", "anchors": ["pkg/cache/cache.go: hydratable, MarshalCatalog, MarshalRenderable, MarshalExpressable"]}
{"id": "C174", "title": "Maps are never accessed by two goroutines at once", "statement": "While a folder is discovered, an inline document decoded and hydrated, no two goroutines access the same map at the same time when one of them writes (which would end the server with a fatal error that cannot be recovered). The goroutines of discovery can always run to the end, and then each write that the references of the files call for has been done once.", "quantifier": "all files and references, all numbers of goroutines, all interleavings", "why_tests_cant": "the race detector sees the schedules of one run; the number of goroutines is that of the elements of the files", "anchors": ["pkg/serializables/folder.go: schemaRef, includeSchema, importSchema, linkbaseRefSchema", "pkg/serializables/document.go: DecodeIxbrlFile", "pkg/hydratables/document.go: HydrateDocument"]}
{"id": "C175", "title": "There are no data races", "statement": "No two goroutines of the server access the same variable at the same time when one of them writes. (This is false of the code: those of DecodeIxbrlFile race for both error variables whatever the document is, those of MarshalRenderable for the languages and label roles or for the error, whatever the folder is, and those of HydrateDocument for the error variable exactly if there are two facts of a kind and one of them has an error.)", "quantifier": "all documents, folders, numbers of goroutines and interleavings", "why_tests_cant": "a race is a property of all schedules; the detector has to be run, and to meet the schedule", "anchors": ["pkg/serializables/document.go: DecodeIxbrlFile", "pkg/hydratables/document.go: HydrateDocument", "pkg/renderables/renderable.go: MarshalRenderable", "pkg/serializables/folder.go: schemaRef"]}
{"id": "C176", "title": "Answers do not depend on chance", "statement": "Two requests for the same thing of the same loaded folder get the same answer, whatever the orders in which the runtime ranges over maps and however goroutines are interleaved. (This is false of the code. If two label linkbases give a concept different texts in one role and language, either is shown. The lists of languages and label roles of a renderable come in any order, so that whenever there are two languages the same request may get other bytes. If the folder has at most one label linkbase it holds for facts, and it holds for renderables but for these lists, the numbers and order of footnotes, and the languages of column headers and of facts of calculations, if the folder has at most one linkbase of a kind.)", "quantifier": "all sites, folders, requests, map orders and schedules", "why_tests_cant": "the runtime chooses orders at random; a test sees some of them", "anchors": ["pkg/cache/cache.go: MarshalExpressable, MarshalRenderable", "pkg/renderables/renderable.go: MarshalRenderable", "pkg/renderables/label.go: GetLabel", "pkg/renderables/labelPack.go: destruct, reduce", "pkg/renderables/contextualQuadrant.go: getMemberGridAndVoidQuadrant, getVoidQuadrant", "pkg/renderables/calculationGrid.go: getSummationItems", "pkg/renderables/definitionGrid.go: dGrid"]}
{"id": "C177", "title": "A restart changes no answer", "statement": "A server that is restarted on the same files, and loads a folder anew in whatever orders its goroutines and maps come, may answer a request about the folder exactly as it might have before. (This is false of the code: if a report refers to two schemas of the same namespace, the one that is written last is asked for its concepts, and a fact that was answered before the restart may not be found after it. It holds of catalogs and documents always, and of facts and renderables if no namespace has two locations that it may be given last.)", "quantifier": "all sites, folders, pairs of loads, requests and answers", "why_tests_cant": "the goroutines of discovery and the maps of hydration come in any order; a test sees a few of the pairs", "anchors": ["pkg/serializables/folder.go: Discover", "pkg/hydratables/hydratable.go: Hydrate", "pkg/hydratables/presentationLinkbase.go: dedupPresentationLink", "pkg/hydratables/definitionLinkbase.go: dedupDefinitionLink", "pkg/hydratables/calculationLinkbase.go: dedupCalculationLink", "pkg/hydratables/query.go: NameQuery", "pkg/cache/cache.go: MarshalCatalog, MarshalExpressable, MarshalRenderable"]}
{"id": "C178", "title": "Which file is asked for the concepts of a namespace", "statement": "After discovery a namespace leads to a location that some followed reference gives it and from whose file it is not given another, and it may lead to each of these. In particular a schema that includes another file of its own namespace is never asked for its concepts, in whatever order the goroutines come: facts whose concepts only it declares are not read.", "quantifier": "every folder on disk, every interleaving of the goroutines of discovery", "why_tests_cant": "which write is last depends on the interleaving; a test sees a few of them, and the set of those that are possible is a statement about all", "anchors": ["pkg/serializables/folder.go: schemaRef", "pkg/serializables/folder.go: importSchema", "pkg/serializables/folder.go: includeSchema", "pkg/hydratables/query.go: NameQuery"]}
{"id": "C179", "title": "A client can compute the slug of a network itself", "statement": "The catalog lists for every entity and role URI of the folder the published FNV-1a hash (128 bits, as 32 small hexadecimal digits) of the UTF-8 octets of entity, role URI and definition, of the last definition if there are several. A request is answered if and only if its hash is computed so from an entity and a relationship set of the folder, and the answer is about such ones.", "quantifier": "every folder, every text asked for", "why_tests_cant": "links across program versions and clients written in other languages rely on the value of the hash; tests compare a few values", "anchors": ["pkg/renderables/catalog.go: hash, MarshalCatalog", "pkg/renderables/renderable.go: MarshalRenderable"]}
