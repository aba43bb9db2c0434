{
 "claims": [
  {
   "property": "C01",
   "status": "proved",
   "theorems": [
    "Telefacts.C01_xmlns_resolves"
   ],
   "note": ""
  },
  {
   "property": "C02",
   "status": "proved",
   "theorems": [
    "Telefacts.C02_one_prefix_per_namespace"
   ],
   "note": ""
  },
  {
   "property": "C03",
   "status": "partial",
   "theorems": [
    "Telefacts.C03_injective_partial",
    "Telefacts.C03_injective_fails",
    "Telefacts.C03_given",
    "Telefacts.C03_exact"
   ],
   "note": "False of the code in general (witness); proved when no declared prefix has the generated shape. C03_given says which output prefix a namespace gets, C03_exact exactly when two namespaces share one."
  },
  {
   "property": "C04",
   "status": "proved",
   "theorems": [
    "Telefacts.C04_fresh_prefix",
    "Telefacts.C04_provider_panics_iff"
   ],
   "note": ""
  },
  {
   "property": "C05",
   "status": "proved",
   "theorems": [
    "Telefacts.C05_provideXmlName"
   ],
   "note": ""
  },
  {
   "property": "C06",
   "status": "proved",
   "theorems": [
    "Telefacts.C06_provideName"
   ],
   "note": ""
  },
  {
   "property": "C07",
   "status": "proved",
   "theorems": [
    "Telefacts.C07_names_agree_iff"
   ],
   "note": ""
  },
  {
   "property": "C08",
   "status": "partial",
   "theorems": [
    "Telefacts.C08_inside_partial",
    "Telefacts.C08_fails",
    "Telefacts.C08_fails_url",
    "Telefacts.C08_exact",
    "Telefacts.C08_anywhere_fails"
   ],
   "note": "False of the code: a URL path with enough dot-dot segments names a file outside the cache directory (witness). Proved for every URL whose path never climbs above its start. C08_exact says which file it is and exactly when it lies in the directory; C08_anywhere_fails that every file of the machine is the file of some URL of every host."
  },
  {
   "property": "C09",
   "status": "proved",
   "theorems": [
    "Telefacts.C09_same_file_iff"
   ],
   "note": ""
  },
  {
   "property": "C10",
   "status": "proved",
   "theorems": [
    "Telefacts.C10_discoverGlobalFile"
   ],
   "note": ""
  },
  {
   "property": "C11",
   "status": "proved",
   "theorems": [
    "Telefacts.C11_terminates_iff"
   ],
   "note": ""
  },
  {
   "property": "C12",
   "status": "proved",
   "theorems": [
    "Telefacts.C12_collects_reachable"
   ],
   "note": ""
  },
  {
   "property": "C13",
   "status": "proved",
   "theorems": [
    "Telefacts.C13_schedule_independent"
   ],
   "note": ""
  },
  {
   "property": "C14",
   "status": "proved",
   "theorems": [
    "Telefacts.C14_one_instance"
   ],
   "note": ""
  },
  {
   "property": "C15",
   "status": "proved",
   "theorems": [
    "Telefacts.C15_existing_untouched",
    "Telefacts.C15_id_was_unused",
    "Telefacts.C15_ids_distinct",
    "Telefacts.C15_key_id",
    "Telefacts.C15_second_call"
   ],
   "note": ""
  },
  {
   "property": "C16",
   "status": "proved",
   "theorems": [
    "Telefacts.C16_created_has_metadata",
    "Telefacts.C16_crash_states",
    "Telefacts.C16_crash_without_metadata",
    "Telefacts.C16_key_lost"
   ],
   "note": ""
  },
  {
   "property": "C17",
   "status": "proved",
   "theorems": [
    "Telefacts.C17_crash_states",
    "Telefacts.C17_success"
   ],
   "note": ""
  },
  {
   "property": "C18",
   "status": "proved",
   "theorems": [
    "Telefacts.C18_only_image_sources"
   ],
   "note": ""
  },
  {
   "property": "C19",
   "status": "proved",
   "theorems": [
    "Telefacts.C19_presentation",
    "Telefacts.C19_definition",
    "Telefacts.C19_calculation"
   ],
   "note": ""
  },
  {
   "property": "C20",
   "status": "proved",
   "theorems": [
    "Telefacts.C20_presentation",
    "Telefacts.C20_definition",
    "Telefacts.C20_calculation"
   ],
   "note": ""
  },
  {
   "property": "C21",
   "status": "partial",
   "theorems": [
    "Telefacts.C21_flags_partial",
    "Telefacts.C21_fails",
    "Telefacts.C21_flags",
    "Telefacts.C21_exact"
   ],
   "note": "False of the code: the error checks are inverted, so closed is always false and a parsable usable is always true (witnesses). Proved for arcs not declared closed with a true usable attribute; the exact values are part of C19_definition. C21_exact: exactly the arcs for which the claim holds."
  },
  {
   "property": "C22",
   "status": "proved",
   "theorems": [
    "Telefacts.C22_facts"
   ],
   "note": ""
  },
  {
   "property": "C23",
   "status": "partial",
   "theorems": [
    "Telefacts.C23_exact",
    "Telefacts.C23_precision_partial",
    "Telefacts.C23_fails"
   ],
   "note": "False of the code at two values: decimals equal to the sentinels are indistinguishable from INF and absent (witness). Proved exactly for every other value; C23_exact: the claim holds of a fact if and only if its decimals attribute is neither sentinel."
  },
  {
   "property": "C24",
   "status": "proved",
   "theorems": [
    "Telefacts.C24_contexts",
    "Telefacts.C24_typed_fails"
   ],
   "note": "Exact characterisation of completion and content; the panic claim is proved when no typed member is stuck. C24_typed_fails shows that a typed member with an undeclared element also panics and malformed inner XML loops for ever."
  },
  {
   "property": "C25",
   "status": "partial",
   "theorems": [
    "Telefacts.C25_arcs_partial",
    "Telefacts.C25_unknown",
    "Telefacts.C25_dimension",
    "Telefacts.C25_panics",
    "Telefacts.C25_fails",
    "Telefacts.C25_exact"
   ],
   "note": "False of the code for sibling elements (witness). Proved: the exact arcs (a chain in document order), the texts, and the claim when no element has a sibling; nothing is recorded or the program panics if an element has no concept, and which of the two. C25_exact: with different elements, the claim holds exactly if no element has a sibling."
  },
  {
   "property": "C26",
   "status": "partial",
   "theorems": [
    "Telefacts.C26_measurement_partial",
    "Telefacts.C26_fails",
    "Telefacts.C26_exact",
    "Telefacts.C26_all_fails"
   ],
   "note": "False of the code: the denominator is looked up under the local name of the numerator (witness: USD per share). Proved: simple units, numerators, and exactly what is returned for the denominator. C26_exact: the denominator is as the registry has it exactly if it has the local name of the numerator or neither is there; C26_all_fails: every other unit that divides gets a wrong denominator."
  },
  {
   "property": "C27",
   "status": "proved",
   "theorems": [
    "Telefacts.C27_registry",
    "Telefacts.C27_file"
   ],
   "note": "The registry file is its first units element, the only one the code reads."
  },
  {
   "property": "C28",
   "status": "proved",
   "theorems": [
    "Telefacts.C28_round_trip"
   ],
   "note": ""
  },
  {
   "property": "C29",
   "status": "proved",
   "theorems": [
    "Telefacts.C29_find_fact"
   ],
   "note": ""
  },
  {
   "property": "C30",
   "status": "partial",
   "theorems": [
    "Telefacts.C30_footnotes_partial",
    "Telefacts.C30_fails",
    "Telefacts.C30_exact"
   ],
   "note": "False of the code in four ways (witnesses): a link without arcs ends the search, footnotes are found by id instead of label, only the first link and only the first locator of the fact count. Proved where none of these occurs; soundness proved in general. Assumes Faithful of the arcs library. C30_exact: exactly which footnotes are returned."
  },
  {
   "property": "C31",
   "status": "partial",
   "theorems": [
    "Telefacts.C31_document_partial",
    "Telefacts.C31_succeeds",
    "Telefacts.C31_fails",
    "Telefacts.C31_exact"
   ],
   "note": "False for malformed inline facts: the process panics or returns an error depending on the schedule (witness). Proved for every schedule: which documents are hydrated (exact), and the whole claim when no inline fact is malformed. C31_exact: exactly for which documents some schedule panics, and some schedule fails."
  },
  {
   "property": "C32",
   "status": "proved",
   "theorems": [
    "Telefacts.C32_subjects"
   ],
   "note": ""
  },
  {
   "property": "C33",
   "status": "proved",
   "theorems": [
    "Telefacts.C33_relationship_sets"
   ],
   "note": ""
  },
  {
   "property": "C34",
   "status": "proved",
   "theorems": [
    "Telefacts.C34_slugs_resolve"
   ],
   "note": ""
  },
  {
   "property": "C35",
   "status": "partial",
   "theorems": [
    "Telefacts.C35_slugs_differ_partial",
    "Telefacts.C35_fails",
    "Telefacts.C35_all_fails",
    "Telefacts.C35_endless_fails"
   ],
   "note": "False of the code: two role types of one folder with the same concatenation have one slug (witness). Proved when no entity and no role URI is a proper prefix of another and FNV does not collide on the texts. C35_all_fails: every relationship set with a title shares its slug with another; C35_endless_fails: among endlessly many roles two share a slug."
  },
  {
   "property": "C36",
   "status": "proved",
   "theorems": [
    "Telefacts.C36_slug_shape"
   ],
   "note": ""
  },
  {
   "property": "C37",
   "status": "proved",
   "theorems": [
    "Telefacts.C37_columns",
    "Telefacts.C37_entity"
   ],
   "note": "Entities are compared as the text scheme/identifier, which identifies the entity when identifiers have no slash."
  },
  {
   "property": "C38",
   "status": "partial",
   "theorems": [
    "Telefacts.C38_no_panic_partial",
    "Telefacts.C38_fails"
   ],
   "note": "False of the code: a dangling contextRef of a fact for a concrete row panics (witness). Proved: that is the only way to panic."
  },
  {
   "property": "C39",
   "status": "proved",
   "theorems": [
    "Telefacts.C39_sorted",
    "Telefacts.C39_columns"
   ],
   "note": ""
  },
  {
   "property": "C40",
   "status": "proved",
   "theorems": [
    "Telefacts.C40_quadrant",
    "Telefacts.C40_found"
   ],
   "note": ""
  },
  {
   "property": "C41",
   "status": "partial",
   "theorems": [
    "Telefacts.C41_numbers_partial",
    "Telefacts.C41_single_partial",
    "Telefacts.C41_count_partial",
    "Telefacts.C41_noted_partial",
    "Telefacts.C41_fails",
    "Telefacts.C41_exact"
   ],
   "note": "False of the code with two footnotes: the map is ranged over separately for every cell and for the list (witness). Proved for equal orders and for one footnote; counts and bounds for all orders. C41_exact: the numbers are right for all orders exactly if every cell with a footnote has the texts of all footnotes."
  },
  {
   "property": "C42",
   "status": "proved",
   "theorems": [
    "Telefacts.C42_grid",
    "Telefacts.C42_empty"
   ],
   "note": "A cell is empty iff no member matches provided members have something to show; otherwise the cell is exactly the first matching member."
  },
  {
   "property": "C43",
   "status": "partial",
   "theorems": [
    "Telefacts.C43_explicit_partial",
    "Telefacts.C43_order_partial",
    "Telefacts.C43_fails",
    "Telefacts.C43_unknown_fails",
    "Telefacts.C43_exact"
   ],
   "note": "False of the code: a typed-domain element without text of its own makes the walk throw all rows away (witness). Proved when every element of the typed domain trees is known, in particular without typed members. C43_unknown_fails: whenever there is such an element no explicit dimension has a row. C43_exact: the rows are there exactly if every element has a text."
  },
  {
   "property": "C44",
   "status": "partial",
   "theorems": [
    "Telefacts.C44_one_partial",
    "Telefacts.C44_fails",
    "Telefacts.C44_two_fails"
   ],
   "note": "False of the code: the dimension is set once, so all typed rows carry the first typed dimension (witness). Proved: all typed rows carry the same dimension, that of a tree, hence correct with one typed dimension. C44_two_fails: of two typed dimensions one is always named by no row."
  },
  {
   "property": "C45",
   "status": "proved",
   "theorems": [
    "Telefacts.C45_rows",
    "Telefacts.C45_none"
   ],
   "note": "Order attributes that are NaN excluded (strconv.ParseFloat accepts the text NaN)."
  },
  {
   "property": "C46",
   "status": "partial",
   "theorems": [
    "Telefacts.C46_items_partial",
    "Telefacts.C46_order_partial",
    "Telefacts.C46_link_partial",
    "Telefacts.C46_fails",
    "Telefacts.C46_exact"
   ],
   "note": "False of the code in one point: Scale is the absolute weight rounded to one decimal, so 0.25 is shown as 0.2 (witness). Proved: exact set of items and contributions, sign, scale for integer weights, rounding to a nearest tenth otherwise, order, independence of map order, and which link is shown. C46_exact: the scale is the weight exactly for multiples of one half."
  },
  {
   "property": "C47",
   "status": "proved",
   "theorems": [
    "Telefacts.C47_graph",
    "Telefacts.C47_order"
   ],
   "note": ""
  },
  {
   "property": "C48",
   "status": "partial",
   "theorems": [
    "Telefacts.C48_default_partial",
    "Telefacts.C48_fails",
    "Telefacts.C48_exact"
   ],
   "note": "False of the code: dimension-domain arcs are marked default too (witness). Proved: no arc of another role is. C48_exact: the claim holds exactly of roles without dimension-domain arcs."
  },
  {
   "property": "C49",
   "status": "proved",
   "theorems": [
    "Telefacts.C49_labels"
   ],
   "note": ""
  },
  {
   "property": "C50",
   "status": "partial",
   "theorems": [
    "Telefacts.C50_english_partial",
    "Telefacts.C50_fails",
    "Telefacts.C50_exact"
   ],
   "note": "False of the code: the case \"en\" of the Go switch has no body, so labels tagged en are ignored (witness). Proved for en-US. C50_exact: there is an English text exactly if a label is tagged en-US."
  },
  {
   "property": "C51",
   "status": "partial",
   "theorems": [
    "Telefacts.C51_offered_partial",
    "Telefacts.C51_grid_partial",
    "Telefacts.C51_fails",
    "Telefacts.C51_typed_fails"
   ],
   "note": "False of the code: reduce replaces a role's language map instead of merging, and labels of typed domains are not offered (witnesses). Roles proved; languages characterised exactly (those of the last label with the role); the presentation grid offers those of its rows, dimensions and explicit members."
  },
  {
   "property": "C52",
   "status": "partial",
   "theorems": [
    "Telefacts.C52_languages_partial",
    "Telefacts.C52_renderable_partial",
    "Telefacts.C52_same_partial",
    "Telefacts.C52_fails",
    "Telefacts.C52_any_fails",
    "Telefacts.C52_depends_fails"
   ],
   "note": "False of the code: unsynchronised appends lose languages (witness interleaving; for each grid there is a schedule after which only its languages are offered, so whenever two grids offer different languages the answer depends on the schedule). Proved for three equal lists on any schedule. Proved for non-overlapping appends in any order; no foreign language for any interleaving."
  },
  {
   "property": "C53",
   "status": "proved",
   "theorems": [
    "Telefacts.C53_months"
   ],
   "note": "month distance plus one from 30 days on; otherwise the raw period. English and Spanish texts"
  },
  {
   "property": "C54",
   "status": "proved",
   "theorems": [
    "Telefacts.C54_headers"
   ],
   "note": "headers without an Unlabelled entry are left alone; contexts always give one"
  },
  {
   "property": "C55",
   "status": "proved",
   "theorems": [
    "Telefacts.C55_english"
   ],
   "note": "an empty start is dropped together with its slash: formatDate shows '/x' as 'x'"
  },
  {
   "property": "C56",
   "status": "proved",
   "theorems": [
    "Telefacts.C56_missing_nil",
    "Telefacts.C56_entries",
    "Telefacts.C56_verbatim"
   ],
   "note": ""
  },
  {
   "property": "C57",
   "status": "proved",
   "theorems": [
    "Telefacts.C57_no_panic",
    "Telefacts.C57_balanced",
    "Telefacts.C57_never_overclosed"
   ],
   "note": "Tokenizing is not modelled; every list of tokens is covered."
  },
  {
   "property": "C58",
   "status": "partial",
   "theorems": [
    "Telefacts.C58_whitelist",
    "Telefacts.C58_breaks",
    "Telefacts.C58_no_breaks_in_tables_partial",
    "Telefacts.C58_fails_stray",
    "Telefacts.C58_fails_text"
   ],
   "note": "The whitelist of pieces is proved for all token streams. False of the code: a stray table end tag lets line breaks into tables, and text tokens are shown unescaped, so that escaped markup comes out as markup (witnesses)."
  },
  {
   "property": "C59",
   "status": "partial",
   "theorems": [
    "Telefacts.C59_renders_partial",
    "Telefacts.C59_exact",
    "Telefacts.C59_error",
    "Telefacts.C59_fails"
   ],
   "note": "False of the code: when the registry cannot be read every renderable fails (witness). Proved when it can be read. C59_exact: a slug of the catalog renders if and only if it can."
  },
  {
   "property": "C60",
   "status": "proved",
   "theorems": [
    "Telefacts.C60_transparent",
    "Telefacts.C60_deterministic",
    "Telefacts.C60_answers",
    "Telefacts.C60_every"
   ],
   "note": "C60_every: with caching switched off every direct answer does occur."
  },
  {
   "property": "C61",
   "status": "partial",
   "theorems": [
    "Telefacts.C61_partial",
    "Telefacts.C61_fails",
    "Telefacts.C61_fails_panic",
    "Telefacts.C61_all_fails",
    "Telefacts.C61_all_fails_panic"
   ],
   "note": "False of the code with the cache on: errors after discovery are cached as empty successes or nil folders (witness runs). Proved without cache, and for discovery failures with cache. C61_all_fails: whenever what is asked for of a folder that loads can fail, there is a run in which the same call then succeeds; C61_all_fails_panic: after every error of hydration the next call panics."
  },
  {
   "property": "C62",
   "status": "partial",
   "theorems": [
    "Telefacts.C62_keys_disjoint",
    "Telefacts.C62_fails",
    "Telefacts.C62_all_fails",
    "Telefacts.C62_endless_fails"
   ],
   "note": "Stated about every key that any execution of the request programs reads or writes. Proved for UUID-shaped ids, one-segment hashes, context ids without a colon (XML ids have none) and a collision-free hash of fact paths; false for arbitrary path segments as ids, and for context ids with a colon (witnesses). C62_all_fails: every request for a fact with a prefix shares its key with another request; C62_endless_fails: among endlessly many contexts two share a key."
  },
  {
   "property": "C63",
   "status": "partial",
   "theorems": [
    "Telefacts.C63_locks_released",
    "Telefacts.C63_fails",
    "Telefacts.C63_all_fails"
   ],
   "note": "Proved in normal operation (UUID-shaped ids); false when any path segment is an id: a run that blocks the server for ever. C63_all_fails: so for every backend that has the entity names and a folder that loads."
  },
  {
   "property": "C64",
   "status": "proved",
   "theorems": [
    "Telefacts.C64_published_stable"
   ],
   "note": ""
  },
  {
   "property": "C65",
   "status": "proved",
   "theorems": [
    "Telefacts.C65_catalog",
    "Telefacts.C65_renderable",
    "Telefacts.C65_expressable"
   ],
   "note": ""
  },
  {
   "property": "C66",
   "status": "proved",
   "theorems": [
    "Telefacts.C66_content_type"
   ],
   "note": ""
  },
  {
   "property": "C67",
   "status": "proved",
   "theorems": [
    "Telefacts.C67_lookup_iff"
   ],
   "note": ""
  },
  {
   "property": "C68",
   "status": "proved",
   "theorems": [
    "Telefacts.C68_global_transparent"
   ],
   "note": ""
  },
  {
   "property": "C69",
   "status": "proved",
   "theorems": [
    "Telefacts.C69_sorted",
    "Telefacts.C69_listed",
    "Telefacts.C69_complete"
   ],
   "note": "'No member is listed twice' is the structure Tidy; sorting and the meaning of the marks need no hypothesis."
  },
  {
   "property": "C70",
   "status": "proved",
   "theorems": [
    "Telefacts.C70_partition"
   ],
   "note": ""
  },
  {
   "property": "C71",
   "status": "proved",
   "theorems": [
    "Telefacts.C71_label_links"
   ],
   "note": ""
  },
  {
   "property": "C72",
   "status": "proved",
   "theorems": [
    "Telefacts.C72_role_refs"
   ],
   "note": ""
  },
  {
   "property": "C73",
   "status": "proved",
   "theorems": [
    "Telefacts.C73_concepts"
   ],
   "note": ""
  },
  {
   "property": "C74",
   "status": "partial",
   "theorems": [
    "Telefacts.C74_role_types_partial",
    "Telefacts.C74_fails",
    "Telefacts.C74_exact"
   ],
   "note": "False of the code: only the first appinfo of the first annotation is read (witness). Proved for that one. C74_exact: complete exactly if no well-formed role type stands elsewhere."
  },
  {
   "property": "C75",
   "status": "proved",
   "theorems": [
    "Telefacts.C75_name_query",
    "Telefacts.C75_exact"
   ],
   "note": ""
  },
  {
   "property": "C76",
   "status": "proved",
   "theorems": [
    "Telefacts.C76_entity_query"
   ],
   "note": ""
  },
  {
   "property": "C77",
   "status": "proved",
   "theorems": [
    "Telefacts.C77_units"
   ],
   "note": ""
  },
  {
   "property": "C78",
   "status": "proved",
   "theorems": [
    "Telefacts.C78_footnote_links"
   ],
   "note": ""
  },
  {
   "property": "C79",
   "status": "proved",
   "theorems": [
    "Telefacts.C79_networks"
   ],
   "note": ""
  },
  {
   "property": "C80",
   "status": "proved",
   "theorems": [
    "Telefacts.C80_locator"
   ],
   "note": ""
  },
  {
   "property": "C81",
   "status": "partial",
   "theorems": [
    "Telefacts.C81_all_partial",
    "Telefacts.C81_fails",
    "Telefacts.C81_first_fails"
   ],
   "note": "False of the code: only the first link found is shown (witness). Proved when the role has one link. C81_first_fails: no other linkbase has any influence."
  },
  {
   "property": "C82",
   "status": "partial",
   "theorems": [
    "Telefacts.C82_last_partial",
    "Telefacts.C82_fails",
    "Telefacts.C82_exact",
    "Telefacts.C82_uniform_partial"
   ],
   "note": "False of the code: languages are accumulated while items are rendered (witness). Proved for the item ranged over last. C82_exact: exactly the languages in which the facts of each item are rendered; C82_uniform_partial: right for all items if all labels have texts in the same roles and languages."
  },
  {
   "property": "C83",
   "status": "partial",
   "theorems": [
    "Telefacts.C83_one_partial",
    "Telefacts.C83_fails",
    "Telefacts.C83_exact"
   ],
   "note": "False of the code: the domains of all dimensions are listed for each of them (witness). Proved when only one dimension has domains and defaults. C83_exact: exactly when only members of the dimension are listed."
  },
  {
   "property": "C84",
   "status": "partial",
   "theorems": [
    "Telefacts.C84_default_partial",
    "Telefacts.C84_fails",
    "Telefacts.C84_exact"
   ],
   "note": "False of the code: under an exclusive hypercube the defaults of all dimensions are listed (witness). Proved for members not struck through. C84_exact: exactly when only defaults of the dimension are marked."
  },
  {
   "property": "C85",
   "status": "proved",
   "theorems": [
    "Telefacts.C85_roots"
   ],
   "note": ""
  },
  {
   "property": "C86",
   "status": "partial",
   "theorems": [
    "Telefacts.C86_dimensions_partial",
    "Telefacts.C86_fails",
    "Telefacts.C86_exact",
    "Telefacts.C86_further_fails"
   ],
   "note": "False of the code with two definition linkbases (witness). Proved with one. C86_exact: exactly which dimensions there are with any number of linkbases; C86_further_fails: a further linkbase without the locator always adds one that does not exist."
  },
  {
   "property": "C87",
   "status": "proved",
   "theorems": [
    "Telefacts.C87_numeric",
    "Telefacts.C87_not_a_number",
    "Telefacts.C87_english_unlabelled"
   ],
   "note": "digits.New and the multiplication by 100 are parameters"
  },
  {
   "property": "C88",
   "status": "proved",
   "theorems": [
    "Telefacts.C88_expression",
    "Telefacts.C88_nothing"
   ],
   "note": ""
  },
  {
   "property": "C89",
   "status": "proved",
   "theorems": [
    "Telefacts.C89_period"
   ],
   "note": ""
  },
  {
   "property": "C90",
   "status": "partial",
   "theorems": [
    "Telefacts.C90_no_panic_partial",
    "Telefacts.C90_fails_no_document",
    "Telefacts.C90_fails_instance"
   ],
   "note": "False of the code: without inline document every request panics, with several instances some do (witnesses). Proved: exactly when it panics."
  },
  {
   "property": "C91",
   "status": "partial",
   "theorems": [
    "Telefacts.C91_rows_partial",
    "Telefacts.C91_fails",
    "Telefacts.C91_other_fails"
   ],
   "note": "False of the code: a typed dimension of another context of the concept removes all rows (witness). Proved when all typed dimensions are those of the context. C91_other_fails: so for every such context."
  },
  {
   "property": "C92",
   "status": "proved",
   "theorems": [
    "Telefacts.C92_presentation"
   ],
   "note": ""
  },
  {
   "property": "C93",
   "status": "proved",
   "theorems": [
    "Telefacts.C93_calculation",
    "Telefacts.C93_definition"
   ],
   "note": ""
  },
  {
   "property": "C94",
   "status": "partial",
   "theorems": [
    "Telefacts.C94_shown_partial",
    "Telefacts.C94_fails",
    "Telefacts.C94_exact"
   ],
   "note": "False of the code: of two facts with the same concept and context, say in two currencies, one is shown nowhere (witness). Proved for facts without such a rival. C94_exact: a fact is shown exactly if it is the first with its concept and context."
  },
  {
   "property": "C95",
   "status": "proved",
   "theorems": [
    "Telefacts.C95_discovered",
    "Telefacts.C95_right"
   ],
   "note": "C95_right is the statement for a grid, C95_discovered the one for folders on disk; C95_two_instances shows that the hypothesis of C95_right is needed for folders that Discover does not produce."
  },
  {
   "property": "C96",
   "status": "partial",
   "theorems": [
    "Telefacts.C96_languages_partial",
    "Telefacts.C96_exact",
    "Telefacts.C96_fails"
   ],
   "note": "False of the code: languages collected by the other grids are offered too, and so is Truncated, in which no fact has a text (witness). Proved for the languages of the presentation grid. Exactly (C96_exact): a fact has a text in English, Spanish or Unlabelled if, for some role, the last label with that role of those that the grid names has one."
  },
  {
   "property": "C97",
   "status": "proved",
   "theorems": [
    "Telefacts.C97_headers"
   ],
   "note": ""
  },
  {
   "property": "C98",
   "status": "proved",
   "theorems": [
    "Telefacts.C98_unlabelled"
   ],
   "note": ""
  },
  {
   "property": "C99",
   "status": "proved",
   "theorems": [
    "Telefacts.C99_instance",
    "Telefacts.C99_schema",
    "Telefacts.C99_linkbase",
    "Telefacts.C99_registry"
   ],
   "note": "Over element trees; C119 says which texts are which trees."
  },
  {
   "property": "C100",
   "status": "partial",
   "theorems": [
    "Telefacts.C100_exact",
    "Telefacts.C100_kept_partial",
    "Telefacts.C100_fails"
   ],
   "note": "False of the code: a concept named like a part of an instance (unit) and facts inside tuples are lost (witnesses). Proved for children of the root without a reserved name; C100_exact: the claim holds of an instance if and only if every other fact element has a counterpart among these."
  },
  {
   "property": "C101",
   "status": "proved",
   "theorems": [
    "Telefacts.C101_succeeds",
    "Telefacts.C101_entries",
    "Telefacts.C101_disk"
   ],
   "note": ""
  },
  {
   "property": "C102",
   "status": "proved",
   "theorems": [
    "Telefacts.C102_shown"
   ],
   "note": "Under the hypotheses of the statement: one schema, local or published, for the namespace, distinct names and ids, no '#' in ids."
  },
  {
   "property": "C103",
   "status": "proved",
   "theorems": [
    "Telefacts.C103_catalog",
    "Telefacts.C103_facts",
    "Telefacts.C103_renderable",
    "Telefacts.C103_other"
   ],
   "note": "Routing of gorilla/mux 1.8.1 is modelled from its documentation; the file server is a parameter."
  },
  {
   "property": "C104",
   "status": "proved",
   "theorems": [
    "Telefacts.C104_directory",
    "Telefacts.C104_absolute"
   ],
   "note": ""
  },
  {
   "property": "C105",
   "status": "partial",
   "theorems": [
    "Telefacts.C105_file",
    "Telefacts.C105_only_own_files_partial",
    "Telefacts.C105_fails",
    "Telefacts.C105_out_fails"
   ],
   "note": "False of the code: a reference ../b/x.xsd reads a file of another folder (witness). Exact: where a reference leads and when that is inside the folder. Proved when no reference of the folder leads out of it. C105_out_fails: with every reference that leads out, what is discovered depends on a file outside."
  },
  {
   "property": "C106",
   "status": "proved",
   "theorems": [
    "Telefacts.C106_base64",
    "Telefacts.C106_images",
    "Telefacts.C106_shown"
   ],
   "note": "Names in a directory are distinct. html.Parse and html.Render are outside the model; DetectContentType is modelled for the two types only."
  },
  {
   "property": "C107",
   "status": "partial",
   "theorems": [
    "Telefacts.C107_decodes",
    "Telefacts.C107_known_partial",
    "Telefacts.C107_exact",
    "Telefacts.C107_fails"
   ],
   "note": "False of the code: fractions are not read, and a prefix declared below the html element makes hydration fail (witnesses). Exact: which elements are read. Proved: when the prefixes of the text and number facts are declared on the html element and no such fact is malformed, exactly their names and contexts are known. C107_exact: exactly for which documents the claim holds."
  },
  {
   "property": "C108",
   "status": "proved",
   "theorems": [
    "Telefacts.C108_subjects",
    "Telefacts.C108_relationship_sets",
    "Telefacts.C108_networks",
    "Telefacts.C108_document"
   ],
   "note": "Roles of later annotations or appinfos are lost; that is C74_fails."
  },
  {
   "property": "C109",
   "status": "proved",
   "theorems": [
    "Telefacts.C109_reads_back",
    "Telefacts.C109_tame",
    "Telefacts.C109_reader"
   ],
   "note": "encoding/json modelled: numbers are kept as written, lone surrogate escapes are an error here."
  },
  {
   "property": "C110",
   "status": "proved",
   "theorems": [
    "Telefacts.C110_order",
    "Telefacts.C110_contents",
    "Telefacts.C110_deterministic",
    "Telefacts.C110_reload",
    "Telefacts.C110_loadable"
   ],
   "note": ""
  },
  {
   "property": "C111",
   "status": "proved",
   "theorems": [
    "Telefacts.C111_metadata",
    "Telefacts.C111_truncated",
    "Telefacts.C111_round_trip",
    "Telefacts.C111_crash"
   ],
   "note": "encoding/json and UTF-8 decoding of invalid bytes to U+FFFD are modelled."
  },
  {
   "property": "C112",
   "status": "proved",
   "theorems": [
    "Telefacts.C112_accepted",
    "Telefacts.C112_query"
   ],
   "note": ""
  },
  {
   "property": "C113",
   "status": "proved",
   "theorems": [
    "Telefacts.C113_valid",
    "Telefacts.C113_parts"
   ],
   "note": "net/url of Go 1.22 is modelled from knowledge of its source; newer versions reject some more hosts. Bytes are represented as characters."
  },
  {
   "property": "C114",
   "status": "partial",
   "theorems": [
    "Telefacts.C114_named_partial",
    "Telefacts.C114_fails"
   ],
   "note": "False of the code: http://:80/x.xsd is accepted but has no file name (witness). Exact: which valid URLs have one."
  },
  {
   "property": "C115",
   "status": "proved",
   "theorems": [
    "Telefacts.C115_same_file",
    "Telefacts.C115_inside"
   ],
   "note": "C08_fails_url shows a URL that climbs out."
  },
  {
   "property": "C116",
   "status": "proved",
   "theorems": [
    "Telefacts.C116_renderable"
   ],
   "note": "Labels are maps with distinct keys (they are: getLabel_wf). Text is a list of characters; invalid UTF-8 is outside the model."
  },
  {
   "property": "C117",
   "status": "proved",
   "theorems": [
    "Telefacts.C117_expression"
   ],
   "note": "As for C116."
  },
  {
   "property": "C118",
   "status": "proved",
   "theorems": [
    "Telefacts.C118_served"
   ],
   "note": "Under the hypotheses of C102, for facts without a decimals attribute. The text is the source text between the tags, so that entities are not decoded."
  },
  {
   "property": "C119",
   "status": "proved",
   "theorems": [
    "Telefacts.C119_tree",
    "Telefacts.C119_unique",
    "Telefacts.C119_inside",
    "Telefacts.C119_declaration",
    "Telefacts.C119_declaration_unclosed"
   ],
   "note": "encoding/xml of Go 1.22 is modelled from knowledge of its source, on characters after conversion. The grammar is the one the decoder accepts where C120 says it is laxer than XML."
  },
  {
   "property": "C120",
   "status": "partial",
   "theorems": [
    "Telefacts.C120_partial",
    "Telefacts.C120_exact",
    "Telefacts.C120_fails",
    "Telefacts.C120_after_fails"
   ],
   "note": "False of the code: garbage after the root element, repeated attributes and undeclared prefixes are accepted (witnesses). Proved: the root element itself is well-formed. C120_exact: exactly which texts are read; C120_after_fails: whatever follows a file that is read, it is read as before."
  },
  {
   "property": "C121",
   "status": "partial",
   "theorems": [
    "Telefacts.C121_ends_partial",
    "Telefacts.C121_tokens",
    "Telefacts.C121_fails",
    "Telefacts.C121_all_fails"
   ],
   "note": "False of the code: an XML declaration with an encoding inside a typed member makes loading loop forever (witness, from texts). Proved for files without <?xml inside typed members. C121_all_fails: no folder is ever loaded in which a typed member of a known dimension begins with a declaration that its decoder does not accept."
  },
  {
   "property": "C122",
   "status": "partial",
   "theorems": [
    "Telefacts.C122_text_partial",
    "Telefacts.C122_exact",
    "Telefacts.C122_fails"
   ],
   "note": "False of the code: facts are shown as their source text, so that A &amp; B and the same in a CDATA section are shown differently and neither as A & B (witness, from texts to cells). Exact: when source text and value agree (C122_text_partial), and hence when the client finds the value (C122_exact, under the hypotheses of C118)."
  },
  {
   "property": "C123",
   "status": "proved",
   "theorems": [
    "Telefacts.C123_text"
   ],
   "note": "Under the hypotheses of C118."
  },
  {
   "property": "C124",
   "status": "proved",
   "theorems": [
    "Telefacts.C124_catalog_same",
    "Telefacts.C124_catalog",
    "Telefacts.C124_follow",
    "Telefacts.C124_fact",
    "Telefacts.C124_served"
   ],
   "note": "The files do not change while the server runs. Following a slug leads to the network it was advertised for if no two networks of the folder have the same slug (C35 is about when they have). An answer is given if the computation ends; a panic is a possible end."
  },
  {
   "property": "C125",
   "status": "proved",
   "theorems": [
    "Telefacts.C125_same",
    "Telefacts.C125_follow",
    "Telefacts.C125_served",
    "Telefacts.C125_fact"
   ],
   "note": "As for C124. Folder ids are path segments; a handler that panics sends nothing."
  },
  {
   "property": "C126",
   "status": "partial",
   "theorems": [
    "Telefacts.C126_partial",
    "Telefacts.C126_exact",
    "Telefacts.C126_fails"
   ],
   "note": "False of the code: hydration is the same with and without the attributes use and priority (for all files); a relationship whose only arc is prohibited is hydrated (witness). Proved: for roles without prohibiting arcs. Exactly (C126_exact): what is in force is always hydrated, and nothing else is if every prohibited relationship is put in force again by an arc of a higher priority."
  },
  {
   "property": "C127",
   "status": "partial",
   "theorems": [
    "Telefacts.C127_own_partial",
    "Telefacts.C127_fails",
    "Telefacts.C127_exact"
   ],
   "note": "False of the code: two links of a role that use the same labels for different concepts are mixed up, and no row is about the concepts of the second (witness, for every tree builder). Proved for labels that stand for one concept in the role. C127_exact: all labels of a role are right exactly if none stands for two concepts."
  },
  {
   "property": "C128",
   "status": "partial",
   "theorems": [
    "Telefacts.C128_labels_partial",
    "Telefacts.C128_fails"
   ],
   "note": "False of the code: rows do not depend on preferredLabel (for all linkbases). Proved: a row has all labels of its concept."
  },
  {
   "property": "C129",
   "status": "partial",
   "theorems": [
    "Telefacts.C129_own_partial",
    "Telefacts.C129_fails",
    "Telefacts.C129_exact"
   ],
   "note": "False of the code: a primary item without hypercubes of its own has an empty effective domain (for all networks). Proved for items that have all hypercubes above them. Exactly (in tidy networks): when an item that inherits a hypercube with the dimension has one itself (C129_exact)."
  },
  {
   "property": "C130",
   "status": "partial",
   "theorems": [
    "Telefacts.C130_usable_partial",
    "Telefacts.C130_fails"
   ],
   "note": "False of the code: root domains do not depend on usable (for all linkbases and schedules); a member whose only arc is not usable is listed (witness, from attributes). Proved for members to which only usable arcs point."
  },
  {
   "property": "C131",
   "status": "partial",
   "theorems": [
    "Telefacts.C131_ends_partial",
    "Telefacts.C131_fails"
   ],
   "note": "False of the code: root domains do not depend on targetRole, and relationship sets look up the end of such an arc in the target role, so that x#c becomes #c (witnesses, from attributes). Proved for arcs without target role."
  },
  {
   "property": "C132",
   "status": "proved",
   "theorems": [
    "Telefacts.C132_arcs",
    "Telefacts.C132_rows",
    "Telefacts.forest_exists"
   ],
   "note": "Relative to the contract IsForest of the tree builder (joshuanario/arcs, whose source is not available), which a builder meets for all arcs without cycles (forest_exists)."
  },
  {
   "property": "C133",
   "status": "proved",
   "theorems": [
    "Telefacts.C133_fact",
    "Telefacts.C133_tagged",
    "Telefacts.C133_served",
    "Telefacts.C133_http"
   ],
   "note": "As for C124. C133_served: the program may also panic, if loading may, if a fact of the concept refers to a context that is not there, or if a typed domain tree has a node without name."
  },
  {
   "property": "C134",
   "status": "partial",
   "theorems": [
    "Telefacts.C134_exact",
    "Telefacts.C134_labels_partial",
    "Telefacts.C134_partial",
    "Telefacts.C134_fails"
   ],
   "note": "False of the code: an arc without order is dropped from presentation, definition and calculation links (witness); C134_exact says exactly what is hydrated. Proved for roles all of whose arcs have an order, and for label links."
  },
  {
   "property": "C135",
   "status": "proved",
   "theorems": [
    "Telefacts.C135_document",
    "Telefacts.C135_same",
    "Telefacts.C135_served",
    "Telefacts.C135_only",
    "Telefacts.C135_http"
   ],
   "note": "As for C124. golang.org/x/net/html is two parameters: parsing and writing trees, both may fail. Loading the folder may panic."
  },
  {
   "property": "C136",
   "status": "partial",
   "theorems": [
    "Telefacts.C136_one_partial",
    "Telefacts.C136_fails",
    "Telefacts.C136_witness",
    "Telefacts.C136_exact"
   ],
   "note": "False of the code: if two hypercubes that an item includes have the dimension, nothing is listed but struck through (for all networks; witness). Proved for one hypercube, in networks that do not mention a member twice. Exactly (in tidy networks): when one and only one hypercube of the item has the dimension (C136_exact)."
  },
  {
   "property": "C137",
   "status": "partial",
   "theorems": [
    "Telefacts.C137_roles_partial",
    "Telefacts.C137_exact",
    "Telefacts.C137_fails",
    "Telefacts.C137_fails_instance",
    "Telefacts.C137_witness"
   ],
   "note": "False of the code: a linkbase that is referred to without a role is in no folder (for all folders; witness), and discovery does not depend on the linkbaseRef elements of the instance (for all folders). Proved for schemas all of whose references have a role. C137_exact: of the references of schemas, the claim holds exactly if every linkbase that can be read is also referred to with its role."
  },
  {
   "property": "C138",
   "status": "partial",
   "theorems": [
    "Telefacts.C138_kept_partial",
    "Telefacts.C138_exact",
    "Telefacts.C138_fails",
    "Telefacts.C138_fails_prefix",
    "Telefacts.C138_witness"
   ],
   "note": "False of the code: a member with white space after its name, or with a prefix not declared on the root element, is dropped, so that the fact is in the column without the member (for all instances; witness). Proved for names without white space and prefixes of the root element. C138_exact: a member makes a difference exactly if both names, as written and by the declarations of the root element, are those of concepts."
  },
  {
   "property": "C139",
   "status": "partial",
   "theorems": [
    "Telefacts.C139_order_partial",
    "Telefacts.C139_fails",
    "Telefacts.C139_witness",
    "Telefacts.C139_exact"
   ],
   "note": "False of the code: columns are compared by period, number of members and first member, and those that agree are shown in the order of their facts (witness). Proved if no two columns agree in these. C139_exact: of one instance, exactly then."
  },
  {
   "property": "C140",
   "status": "proved",
   "theorems": [
    "Telefacts.C140_arcs",
    "Telefacts.C140_items"
   ],
   "note": "For labels that stand for one concept in the role (C127_fails), orders that are not NaN, and labels that include the href (they do: C49)."
  },
  {
   "property": "C141",
   "status": "partial",
   "theorems": [
    "Telefacts.C141_months_partial",
    "Telefacts.C141_fails",
    "Telefacts.C141_exact"
   ],
   "note": "False of the code: every calendar month of fewer than 31 days is headed by its two dates (for all of them), and a fiscal year of 52 weeks by 13 months (witness). Proved for two or more whole months and for months of 31 days. C141_exact: a duration of whole calendar months is headed by their number exactly if it has two or more of them or the month has 31 days."
  },
  {
   "property": "C142",
   "status": "partial",
   "theorems": [
    "Telefacts.C142_exact",
    "Telefacts.C142_partial",
    "Telefacts.C142_fails"
   ],
   "note": "False of the code: 2019-01-01/2019-12-31 and 2019-01-20/2019-12-31 have the same header (witness). C142_exact says exactly which durations do. Proved for durations that begin with a month."
  },
  {
   "property": "C143",
   "status": "partial",
   "theorems": [
    "Telefacts.C143_number",
    "Telefacts.C143_other",
    "Telefacts.C143_order_partial",
    "Telefacts.C143_separated_partial",
    "Telefacts.C143_fails"
   ],
   "note": "False of the code: an order with white space around it is put last, and orders that differ after the sixteenth digit are the same (witnesses, from attributes to rows). Proved for numbers of up to 15 digits, and for numbers of any number of digits if no double is nearest to both, under the hypotheses of C132. strconv.ParseFloat is modelled on decimal numbers as rounding to the nearest double."
  },
  {
   "property": "C144",
   "status": "partial",
   "theorems": [
    "Telefacts.C144_weight_partial",
    "Telefacts.C144_nearest_partial",
    "Telefacts.C144_fails"
   ],
   "note": "False of the code: a weight with white space around it is shown as + 0.0, and digits after the sixteenth are lost (witnesses, from attributes to items). Proved for numbers of up to 14 digits; with more digits the sign is right and the value is that of a double nearest to the number; under the hypotheses of C140."
  },
  {
   "property": "C145",
   "status": "partial",
   "theorems": [
    "Telefacts.C145_shown_partial",
    "Telefacts.C145_fails"
   ],
   "note": "False of the code: one typed member without content hides the typed rows of all columns, and of two typed dimensions of a context one value is not shown (witnesses). Proved for folders with one typed dimension whose elements all have a text, relative to the contract of the tree builder."
  },
  {
   "property": "C146",
   "status": "proved",
   "theorems": [
    "Telefacts.C146_labels",
    "Telefacts.C146_shown"
   ],
   "note": "Which of several texts with one role and language is shown depends on the order of the label linkbases; all orders are covered."
  },
  {
   "property": "C147",
   "status": "partial",
   "theorems": [
    "Telefacts.C147_published_fails",
    "Telefacts.C147_located_partial"
   ],
   "note": "False of the code: a published schema to which the instance refers is downloaded, but neither its namespace nor its roles are recorded; if there are no other schema references no fact is read and nothing is listed. It holds for facts of published schemas that a file of the folder imports."
  },
  {
   "property": "C148",
   "status": "partial",
   "theorems": [
    "Telefacts.C148_several_files_fails",
    "Telefacts.C147_located_partial"
   ],
   "note": "False of the code: every file of the namespace overwrites the location of the others. With the concepts of two facts in two files at most one of the facts is read. It holds when the namespace has one location."
  },
  {
   "property": "C149",
   "status": "partial",
   "theorems": [
    "Telefacts.C149_respelled_fails",
    "Telefacts.C149_row_partial"
   ],
   "note": "False of the code: references are compared as texts. A row shows only facts of concepts whose location and id spell its reference; that it shows them is C102."
  },
  {
   "property": "C150",
   "status": "partial",
   "theorems": [
    "Telefacts.C150_alike_fails",
    "Telefacts.C150_once_partial"
   ],
   "note": "False of the code: there is a column for every context identifier. Of a single instance every context has one column."
  },
  {
   "property": "C151",
   "status": "partial",
   "theorems": [
    "Telefacts.C151_published_fails",
    "Telefacts.C151_local_partial"
   ],
   "note": "False of the code: published linkbases are downloaded and not read. It holds for the linkbases of the folder."
  },
  {
   "property": "C152",
   "status": "partial",
   "theorems": [
    "Telefacts.C152_measure_partial",
    "Telefacts.C152_file_partial",
    "Telefacts.C152_none_partial",
    "Telefacts.C152_divide_fails"
   ],
   "note": "False of the code: a unit that divides is shown as its numerator, because the denominator is looked up by the name of the numerator. It holds for units that are measures; a number without a unit of the instance is shown without one."
  },
  {
   "property": "C153",
   "status": "partial",
   "theorems": [
    "Telefacts.C153_partial",
    "Telefacts.C153_single_partial",
    "Telefacts.C153_fails"
   ],
   "note": "False of the code with two footnotes: numbers are counted for every cell in the order of another range over the map (witness, from the files to the client). Proved for all orders: as many numbers as footnotes, increasing and within bounds, and the texts of the footnotes are among those of the grid, for tidy links; with one footnote the number is right."
  },
  {
   "property": "C154",
   "status": "partial",
   "theorems": [
    "Telefacts.C154_disk_partial",
    "Telefacts.C154_isolated_partial",
    "Telefacts.C154_loading_partial",
    "Telefacts.C154_rendering_partial",
    "Telefacts.C154_astray_fails",
    "Telefacts.C154_fails",
    "Telefacts.C154_document_fails"
   ],
   "note": "False of the code: a fact that refers to a context that is not there panics in a goroutine of MarshalRenderable, which nothing recovers, as soon as a grid with its concept is asked for (C154_astray_fails, for all folders; witness C154_fails); a malformed inline fact does so while the folder is loaded (exactly when: C154_loading_partial; witness C154_document_fails). Proved for folders whose facts refer to contexts that are there, without typed members and malformed inline facts. That net/http recovers panics of the goroutine that serves a request is trusted; requests that do not come to an end are C11, C25 and C121."
  },
  {
   "property": "C155",
   "status": "partial",
   "theorems": [
    "Telefacts.C155_served",
    "Telefacts.C155_unusable",
    "Telefacts.C155_main",
    "Telefacts.C155_fails",
    "Telefacts.C155_panics"
   ],
   "note": "False of the code: a program that only runs dry never answers a request about a folder with anything but an error, because units, names and published schemas are read through the cache that is then missing. Proved exactly: which sequences of calls make the packages usable, and that the set-up of the server is one of them. Dry mode works after a cache was made once. A program that never makes a cache panics at every request about a folder."
  },
  {
   "property": "C156",
   "status": "partial",
   "theorems": [
    "Telefacts.C156_close_partial",
    "Telefacts.C156_long_partial",
    "Telefacts.C156_whole",
    "Telefacts.C156_accuracy",
    "Telefacts.C156_fails",
    "Telefacts.C156_accuracy_fails"
   ],
   "note": "False of the code: value and product are rounded towards zero, so a whole number of percent is formatted as itself exactly if it is a multiple of 25, and otherwise as a smaller number (seven percent as 6.99…), for every precision (C156_whole, C156_fails); the number of decimals is not lowered by two. What holds: the amount is right up to five units of the last bit (six from 28 decimals on, where math/big rounds the power of five: C156_long_partial, up to 2^60 decimals). What the package digits makes of the amount is not modelled; of Text('f', -1) its documentation is assumed (met by exactText). C156_whole is for values with at most 27 decimals."
  },
  {
   "property": "C157",
   "status": "proved",
   "theorems": [
    "Telefacts.C157_exact",
    "Telefacts.C157_default",
    "Telefacts.C157_variables"
   ],
   "note": "Exactly which directories the file server reaches, for all paths and methods. Names of files only: symbolic links are not modelled; relative paths in WD and GTS are outside. http.FileServer and http.Dir are modelled from their source."
  },
  {
   "property": "C158",
   "status": "partial",
   "theorems": [
    "Telefacts.C158_kept",
    "Telefacts.C158_folders_partial",
    "Telefacts.C158_grows_fails",
    "Telefacts.C158_server_fails"
   ],
   "note": "False of the code: every name that is asked for and is not there leaves an entry, and entries are never removed; for every folder that loads and every n there are requests, none of them successful, that leave n entries. Nothing is kept for folders that are not discovered."
  },
  {
   "property": "C159",
   "status": "partial",
   "theorems": [
    "Telefacts.C159_table_partial",
    "Telefacts.C159_nested_fails",
    "Telefacts.C159_rows_fails"
   ],
   "note": "False of the code: rowspan has no effect, and an inner cell closes the columns of the cell around it. Proved for all tables without tables in their cells: rows, cells, columns and texts are shown in their order."
  },
  {
   "property": "C160",
   "status": "partial",
   "theorems": [
    "Telefacts.C160_linear_partial",
    "Telefacts.C160_fails",
    "Telefacts.C160_bounds"
   ],
   "note": "False of the code: one tag with a large colspan is written that many times. Proved without colspan: at most two pieces a token. C160_bounds, for all text blocks: if the cells span m columns more than there are cells, there are at least m pieces and at most 2m pieces more than tokens."
  },
  {
   "property": "C161",
   "status": "partial",
   "theorems": [
    "Telefacts.C161_exact",
    "Telefacts.C161_partial",
    "Telefacts.C161_fails",
    "Telefacts.C161_forever_fails"
   ],
   "note": "False of the code: white space and time zones are not understood, so such a period is shown as it is written; a period that lasts for ever, or that has no instant and no start, has an empty header. Exactly the dates written in ten characters are shown in words."
  },
  {
   "property": "C162",
   "status": "partial",
   "theorems": [
    "Telefacts.C162_loads",
    "Telefacts.C162_exact",
    "Telefacts.C162_once_partial",
    "Telefacts.C162_fails"
   ],
   "note": "False of the code: a file is read once for every way of references that leads to it (C162_loads, exact); there are folders with n+1 files and 2^(n+1)-1 reads for every n. Exactly the files with one way are read once."
  },
  {
   "property": "C163",
   "status": "partial",
   "theorems": [
    "Telefacts.C163_exact",
    "Telefacts.C163_direct_partial",
    "Telefacts.C163_unread_fails",
    "Telefacts.C163_fails"
   ],
   "note": "False of the code: every reference is taken from the directory of the folder. Exactly the references in files directly in that directory are read as meant; any other file that is meant has no influence."
  },
  {
   "property": "C164",
   "status": "proved",
   "theorems": [
    "Telefacts.C164_prefixes",
    "Telefacts.C164_answers"
   ],
   "note": "For all answers without cache (C60 has the relation to those with it). Names in unit measures, dimension attributes, explicit members and the elements of typed members; the namespaces of elements are resolved by encoding/xml before. Spellings are related by the specification of prefixed names (C01)."
  },
  {
   "property": "C165",
   "status": "partial",
   "theorems": [
    "Telefacts.C165_order_partial",
    "Telefacts.C165_exact",
    "Telefacts.C165_fails"
   ],
   "note": "False of the code: of facts with the same id (or without), concept and context the first is shown. Proved if contexts, units and facts with the same id stay in their order, as do schema references and footnote links; C165_exact: the facts read are the same exactly if those of the same id are in the same order."
  },
  {
   "property": "C166",
   "status": "partial",
   "theorems": [
    "Telefacts.C166_root_partial",
    "Telefacts.C166_fails",
    "Telefacts.C166_witness"
   ],
   "note": "False of the code: encoding/xml delivers the namespace instead of the prefix, which Xmlns takes for a prefixed name; for all such members nothing is recorded or the program panics. Proved for prefixes that the root declares."
  },
  {
   "property": "C167",
   "status": "proved",
   "theorems": [
    "Telefacts.C167_agree"
   ],
   "note": "For presentation, definition and calculation grids of one loaded folder, with orders of maps chosen separately for the two answers (but for the order of several label linkbases, on which labels depend, C176_label_fails). Compared are the text without language and the English one; the labels of rows only in the presentation. The conditions on members and footnotes are part of the statement (OneEach, SameNotes)."
  },
  {
   "property": "C168",
   "status": "proved",
   "theorems": [
    "Telefacts.C168_answers",
    "Telefacts.C168_served"
   ],
   "note": "C168_answers for all requests about the folder, without cache. C168_served for all histories with the cache, under the assumption of C60 (Normal: no two calls share a key; C62 has the calls that do), and with the exception of C60: the body of a failed request may be repeated as a success."
  },
  {
   "property": "C169",
   "status": "partial",
   "theorems": [
    "Telefacts.C169_answers_partial",
    "Telefacts.C169_served_partial",
    "Telefacts.C169_image",
    "Telefacts.C169_fails",
    "Telefacts.C169_panic_fails"
   ],
   "note": "False of the code: every image file of the folder is taken, shown or not, and with the first of them the document is no longer copied but parsed and written again (C169_image, exactly what one more image does; C169_fails for all folders whose document is not written as it is read; golang.org/x/net/html is two parameters); if the document cannot be decoded the error becomes a panic. Proved for further files that are no images: the programs below the cache are equal, so all histories are."
  },
  {
   "property": "C170",
   "status": "proved",
   "theorems": [
    "Telefacts.C170_slugs",
    "Telefacts.C170_leads",
    "Telefacts.C170_keys"
   ],
   "note": "FNV-1a itself is modelled (hash/fnv; its published test vectors are examples beside the theorems), not assumed to be free of collisions: the difference of two states is the value of a polynomial with small coefficients at the prime 2^88+315. Ten bytes are what the proof covers; for arbitrary texts there are collisions (C35, C62)."
  },
  {
   "property": "C171",
   "status": "proved",
   "theorems": [
    "Telefacts.C171_calculation",
    "Telefacts.C171_calculation_only",
    "Telefacts.C171_presentation",
    "Telefacts.C171_presentation_only",
    "Telefacts.C171_definition",
    "Telefacts.C171_definition_only"
   ],
   "note": "From the bytes of the folder to the bytes of the answer (Followed). The conditions are part of the statement; without them it is false (roles in several linkbases C46_fails, labels with several concepts C127_fails). Hypotheses besides: no two networks of the folder share a slug (Unambiguous), no order is NaN, the tree builder joshuanario/arcs is a parameter assumed to build the forest of the arcs (TreeGood; met by forest), and links of a definition arc with a target role need a reference to it. A site that meets all hypotheses is in Props/FollowedArcsDemo."
  },
  {
   "property": "C172",
   "status": "partial",
   "theorems": [
    "Telefacts.C172_stale_fails",
    "Telefacts.C172_old_fails",
    "Telefacts.C172_broken_fails",
    "Telefacts.C172_new_partial",
    "Telefacts.C172_dry",
    "Telefacts.C172_served_fails",
    "Telefacts.C172_served_partial"
   ],
   "note": "False of the code; the exact extent is proved in both directions: kept for ever once answered about (C172_stale_fails), panics for ever if not loadable at first (C172_broken_fails), current if not there or not asked about before (C172_new_partial), current with caching off (C172_dry). The change happens when no call is in progress and no write is outstanding; what is computed from a loaded folder is the same function before and after (SameRest). Which of the answers of a version is given is as in C60 (AnswersAs)."
  },
  {
   "property": "C173",
   "status": "partial",
   "theorems": [
    "Telefacts.C173_partial",
    "Telefacts.C173_served_partial",
    "Telefacts.C173_catalog_partial",
    "Telefacts.C173_mixed_fails"
   ],
   "note": "False of the code (C173_mixed_fails: a change between an answer and its write). Proved for any number of changes at quiet moments (Phases); C173_served_partial carries it to the files of folders, so that what is proved of a server on constant files holds of each answer for one version."
  },
  {
   "property": "C174",
   "status": "proved",
   "theorems": [
    "Telefacts.C174_discover_maps",
    "Telefacts.C174_discover_refines",
    "Telefacts.C174_discover_orders",
    "Telefacts.C174_decode_maps",
    "Telefacts.C174_hydrate_maps"
   ],
   "note": "Executions of Model/Threads (fork, join, mutex, one access at a time) for the goroutines of Model/Goroutines. C174_discover_refines is what the model of discovery (Model/Discover) assumes: the writes, in some order. C174_discover_orders: exactly the orders of Disc.Runs, which the model of the server uses. Searches that do not end are covered by all their depths. The cache library go-cache locks its own maps and is not looked into."
  },
  {
   "property": "C175",
   "status": "partial",
   "theorems": [
    "Telefacts.C175_decode_fails",
    "Telefacts.C175_render_fails",
    "Telefacts.C175_render_exact",
    "Telefacts.C175_hydrate_exact",
    "Telefacts.C175_partial"
   ],
   "note": "False of the code, for every document and for every renderable. Exact: for which variables the goroutines of each of the three functions race, and when. Discovery has no race. The other models take the accesses that race as atomic, which Go does not promise."
  },
  {
   "property": "C176",
   "status": "partial",
   "theorems": [
    "Telefacts.C176_expression_partial",
    "Telefacts.C176_label",
    "Telefacts.C176_label_fails",
    "Telefacts.C176_renderable_partial",
    "Telefacts.C176_first_fails",
    "Telefacts.C176_fails"
   ],
   "note": "False of the code. C176_expression_partial has the answers about facts, for folders with at most one label linkbase, or label linkbases taken in the same order. C176_label_fails: if two label linkbases give the concept different texts, the same request may be answered in two ways; C176_label: the text of each is in some answer. C176_fails: whenever a client finds two languages in a renderable, the same request may get other bytes; C176_first_fails: each of its languages may come first. C176_renderable_partial says what is the same for all orders and schedules (ByChance), for at most one linkbase of a kind (with several the order of linkbases shows, C81_fails). Which folder is loaded is fixed; C124 has the catalogs of two loads."
  },
  {
   "property": "C177",
   "status": "partial",
   "theorems": [
    "Telefacts.C177_catalog",
    "Telefacts.C177_expression_partial",
    "Telefacts.C177_renderable_partial",
    "Telefacts.C177_determined_partial",
    "Telefacts.C177_fails"
   ],
   "note": "False of the code. C177_fails: two loads of a folder, of which one answers with a fact and the other never does; its report refers to two schemas with the same namespace, and both orders are ones that the goroutines can produce. C177_catalog: catalogs and documents are the same. C177_expression_partial, C177_renderable_partial: the same answers are possible if no namespace has two locations that it may be given last (OneHome). C177_determined_partial: with at most one label linkbase there is one answer about a fact."
  },
  {
   "property": "C178",
   "status": "proved",
   "theorems": [
    "Telefacts.C178_exact",
    "Telefacts.C178_executions",
    "Telefacts.C178_fails"
   ],
   "note": "C178_executions: after an execution of the goroutines of Model/Goroutines, a namespace may have exactly the locations of Finally. C178_exact: over the orders that the goroutines can produce (Realised), the locations that a namespace may have after discovery are exactly those of Finally. C178_fails: in no load is a namespace looked up in a file that includes another of the namespace, or leads to one that does; facts whose concepts are declared only there are never read."
  },
  {
   "property": "C179",
   "status": "proved",
   "theorems": [
    "Telefacts.C179_catalog",
    "Telefacts.C179_request"
   ],
   "note": "The specification (Spec/Hash) is independent of the model of hash/fnv: 128-bit words, the prime as a sum of powers, and the offset basis as the FNV-0 hash of the signature from which the authors derived it; numerals by the value of their digits. The registry of names is supposed to be readable (C59)."
  }
 ]
}