c("C01","proved",["C01_xmlns_resolves"])
c("C02","proved",["C02_one_prefix_per_namespace"])
c("C03","partial",["C03_injective_partial","C03_injective_fails","C03_given","C03_exact"],"False of the code in general (witness); proved when no declared prefix has the generated shape. C03_given says which output prefix a namespace gets, C03_exact exactly when two namespaces share one.")
c("C04","proved",["C04_fresh_prefix","C04_provider_panics_iff"])
c("C05","proved",["C05_provideXmlName"])
c("C06","proved",["C06_provideName"])
c("C07","proved",["C07_names_agree_iff"])
c("C08","partial",["C08_inside_partial","C08_fails","C08_fails_url","C08_exact","C08_anywhere_fails"],"False of the code: a URL path with enough dot-dot segments names a file outside the cache directory (witness). Proved for every URL whose path never climbs above its start. C08_exact says which file it is and exactly when it lies in the directory; C08_anywhere_fails that every file of the machine is the file of some URL of every host.")
c("C09","proved",["C09_same_file_iff"])
c("C10","proved",["C10_discoverGlobalFile"])
c("C11","proved",["C11_terminates_iff"])
c("C12","proved",["C12_collects_reachable"])
c("C13","proved",["C13_schedule_independent"])
c("C14","proved",["C14_one_instance"])
c("C15","proved",["C15_existing_untouched","C15_id_was_unused","C15_ids_distinct","C15_key_id","C15_second_call"])
c("C16","proved",["C16_created_has_metadata","C16_crash_states","C16_crash_without_metadata","C16_key_lost"])
c("C17","proved",["C17_crash_states","C17_success"])
c("C18","proved",["C18_only_image_sources"])
c("C19","proved",["C19_presentation","C19_definition","C19_calculation"])
c("C20","proved",["C20_presentation","C20_definition","C20_calculation"])
c("C21","partial",["C21_flags_partial","C21_fails","C21_flags","C21_exact"],"False of the code: the error checks are inverted, so closed is always false and a parsable usable is always true (witnesses). Proved for arcs not declared closed with a true usable attribute; the exact values are part of C19_definition. C21_exact: exactly the arcs for which the claim holds.")
c("C22","proved",["C22_facts"])
c("C23","partial",["C23_exact","C23_precision_partial","C23_fails"],"False of the code at two values: decimals equal to the sentinels are indistinguishable from INF and absent (witness). Proved exactly for every other value; C23_exact: the claim holds of a fact if and only if its decimals attribute is neither sentinel.")
c("C24","proved",["C24_contexts","C24_typed_fails"],"Exact characterisation of completion and content; the panic claim is proved when no typed member is stuck. C24_typed_fails shows that a typed member with an undeclared element also panics and malformed inner XML loops for ever.")
c("C25","partial",["C25_arcs_partial","C25_unknown","C25_dimension","C25_panics","C25_fails","C25_exact"],"False of the code for sibling elements (witness). Proved: the exact arcs (a chain in document order), the texts, and the claim when no element has a sibling; nothing is recorded or the program panics if an element has no concept, and which of the two. C25_exact: with different elements, the claim holds exactly if no element has a sibling.")
c("C26","partial",["C26_measurement_partial","C26_fails","C26_exact","C26_all_fails"],"False of the code: the denominator is looked up under the local name of the numerator (witness: USD per share). Proved: simple units, numerators, and exactly what is returned for the denominator. C26_exact: the denominator is as the registry has it exactly if it has the local name of the numerator or neither is there; C26_all_fails: every other unit that divides gets a wrong denominator.")
c("C27","proved",["C27_registry","C27_file"],"The registry file is its first units element, the only one the code reads.")
c("C28","proved",["C28_round_trip"])
c("C29","proved",["C29_find_fact"])
c("C30","partial",["C30_footnotes_partial","C30_fails","C30_exact"],"False of the code in four ways (witnesses): a link without arcs ends the search, footnotes are found by id instead of label, only the first link and only the first locator of the fact count. Proved where none of these occurs; soundness proved in general. Assumes Faithful of the arcs library. C30_exact: exactly which footnotes are returned.")
c("C31","partial",["C31_document_partial","C31_succeeds","C31_fails","C31_exact"],"False for malformed inline facts: the process panics or returns an error depending on the schedule (witness). Proved for every schedule: which documents are hydrated (exact), and the whole claim when no inline fact is malformed. C31_exact: exactly for which documents some schedule panics, and some schedule fails.")
c("C32","proved",["C32_subjects"])
c("C33","proved",["C33_relationship_sets"])
c("C34","proved",["C34_slugs_resolve"])
c("C35","partial",["C35_slugs_differ_partial","C35_fails","C35_all_fails","C35_endless_fails"],"False of the code: two role types of one folder with the same concatenation have one slug (witness). Proved when no entity and no role URI is a proper prefix of another and FNV does not collide on the texts. C35_all_fails: every relationship set with a title shares its slug with another; C35_endless_fails: among endlessly many roles two share a slug.")
c("C36","proved",["C36_slug_shape"])
c("C37","proved",["C37_columns","C37_entity"],"Entities are compared as the text scheme/identifier, which identifies the entity when identifiers have no slash.")
c("C38","partial",["C38_no_panic_partial","C38_fails"],"False of the code: a dangling contextRef of a fact for a concrete row panics (witness). Proved: that is the only way to panic.")
c("C39","proved",["C39_sorted","C39_columns"])
c("C40","proved",["C40_quadrant","C40_found"])
c("C41","partial",["C41_numbers_partial","C41_single_partial","C41_count_partial","C41_noted_partial","C41_fails","C41_exact"],"False of the code with two footnotes: the map is ranged over separately for every cell and for the list (witness). Proved for equal orders and for one footnote; counts and bounds for all orders. C41_exact: the numbers are right for all orders exactly if every cell with a footnote has the texts of all footnotes.")
c("C42","proved",["C42_grid","C42_empty"],"A cell is empty iff no member matches provided members have something to show; otherwise the cell is exactly the first matching member.")
c("C43","partial",["C43_explicit_partial","C43_order_partial","C43_fails","C43_unknown_fails","C43_exact"],"False of the code: a typed-domain element without text of its own makes the walk throw all rows away (witness). Proved when every element of the typed domain trees is known, in particular without typed members. C43_unknown_fails: whenever there is such an element no explicit dimension has a row. C43_exact: the rows are there exactly if every element has a text.")
c("C44","partial",["C44_one_partial","C44_fails","C44_two_fails"],"False of the code: the dimension is set once, so all typed rows carry the first typed dimension (witness). Proved: all typed rows carry the same dimension, that of a tree, hence correct with one typed dimension. C44_two_fails: of two typed dimensions one is always named by no row.")
c("C45","proved",["C45_rows","C45_none"],"Order attributes that are NaN excluded (strconv.ParseFloat accepts the text NaN).")
c("C46","partial",["C46_items_partial","C46_order_partial","C46_link_partial","C46_fails","C46_exact"],"False of the code in one point: Scale is the absolute weight rounded to one decimal, so 0.25 is shown as 0.2 (witness). Proved: exact set of items and contributions, sign, scale for integer weights, rounding to a nearest tenth otherwise, order, independence of map order, and which link is shown. C46_exact: the scale is the weight exactly for multiples of one half.")
c("C47","proved",["C47_graph","C47_order"])
c("C48","partial",["C48_default_partial","C48_fails","C48_exact"],"False of the code: dimension-domain arcs are marked default too (witness). Proved: no arc of another role is. C48_exact: the claim holds exactly of roles without dimension-domain arcs.")
c("C49","proved",["C49_labels"])
c("C50","partial",["C50_english_partial","C50_fails","C50_exact"],"False of the code: the case \"en\" of the Go switch has no body, so labels tagged en are ignored (witness). Proved for en-US. C50_exact: there is an English text exactly if a label is tagged en-US.")
c("C51","partial",["C51_offered_partial","C51_grid_partial","C51_fails","C51_typed_fails"],"False of the code: reduce replaces a role's language map instead of merging, and labels of typed domains are not offered (witnesses). Roles proved; languages characterised exactly (those of the last label with the role); the presentation grid offers those of its rows, dimensions and explicit members.")
c("C52","partial",["C52_languages_partial","C52_renderable_partial","C52_same_partial","C52_fails","C52_any_fails","C52_depends_fails"],"False of the code: unsynchronised appends lose languages (witness interleaving; for each grid there is a schedule after which only its languages are offered, so whenever two grids offer different languages the answer depends on the schedule). Proved for three equal lists on any schedule. Proved for non-overlapping appends in any order; no foreign language for any interleaving.")
c("C53", "proved", ["C53_months"], "month distance plus one from 30 days on; otherwise the raw period. English and Spanish texts")
c("C54", "proved", ["C54_headers"], "headers without an Unlabelled entry are left alone; contexts always give one")
c("C55", "proved", ["C55_english"], "an empty start is dropped together with its slash: formatDate shows '/x' as 'x'")
c("C56","proved",["C56_missing_nil","C56_entries","C56_verbatim"])
c("C57","proved",["C57_no_panic","C57_balanced","C57_never_overclosed"],"Tokenizing is not modelled; every list of tokens is covered.")
c("C58","partial",["C58_whitelist","C58_breaks","C58_no_breaks_in_tables_partial","C58_fails_stray","C58_fails_text"],"The whitelist of pieces is proved for all token streams. False of the code: a stray table end tag lets line breaks into tables, and text tokens are shown unescaped, so that escaped markup comes out as markup (witnesses).")
c("C59","partial",["C59_renders_partial","C59_exact","C59_error","C59_fails"],"False of the code: when the registry cannot be read every renderable fails (witness). Proved when it can be read. C59_exact: a slug of the catalog renders if and only if it can.")
c("C60","proved",["C60_transparent","C60_deterministic","C60_answers","C60_every"],"C60_every: with caching switched off every direct answer does occur.")
c("C61","partial",["C61_partial","C61_fails","C61_fails_panic","C61_all_fails","C61_all_fails_panic"],"False of the code with the cache on: errors after discovery are cached as empty successes or nil folders (witness runs). Proved without cache, and for discovery failures with cache. C61_all_fails: whenever what is asked for of a folder that loads can fail, there is a run in which the same call then succeeds; C61_all_fails_panic: after every error of hydration the next call panics.")
c("C62","partial",["C62_keys_disjoint","C62_fails","C62_all_fails","C62_endless_fails"],"Stated about every key that any execution of the request programs reads or writes. Proved for UUID-shaped ids, one-segment hashes, context ids without a colon (XML ids have none) and a collision-free hash of fact paths; false for arbitrary path segments as ids, and for context ids with a colon (witnesses). C62_all_fails: every request for a fact with a prefix shares its key with another request; C62_endless_fails: among endlessly many contexts two share a key.")
c("C63","partial",["C63_locks_released","C63_fails","C63_all_fails"],"Proved in normal operation (UUID-shaped ids); false when any path segment is an id: a run that blocks the server for ever. C63_all_fails: so for every backend that has the entity names and a folder that loads.")
c("C64","proved",["C64_published_stable"])
c("C65","proved",["C65_catalog","C65_renderable","C65_expressable"])
c("C66","proved",["C66_content_type"])
c("C67","proved",["C67_lookup_iff"])
c("C68","proved",["C68_global_transparent"])
c("C69","proved",["C69_sorted","C69_listed","C69_complete"],"'No member is listed twice' is the structure Tidy; sorting and the meaning of the marks need no hypothesis.")
c("C70","proved",["C70_partition"])
c("C71","proved",["C71_label_links"])
c("C72","proved",["C72_role_refs"])
c("C73","proved",["C73_concepts"])
c("C74","partial",["C74_role_types_partial","C74_fails","C74_exact"],"False of the code: only the first appinfo of the first annotation is read (witness). Proved for that one. C74_exact: complete exactly if no well-formed role type stands elsewhere.")
c("C75","proved",["C75_name_query","C75_exact"])
c("C76","proved",["C76_entity_query"])
c("C77","proved",["C77_units"])
c("C78","proved",["C78_footnote_links"])
c("C79","proved",["C79_networks"])
c("C80","proved",["C80_locator"])
c("C81","partial",["C81_all_partial","C81_fails","C81_first_fails"],"False of the code: only the first link found is shown (witness). Proved when the role has one link. C81_first_fails: no other linkbase has any influence.")
c("C82","partial",["C82_last_partial","C82_fails","C82_exact","C82_uniform_partial"],"False of the code: languages are accumulated while items are rendered (witness). Proved for the item ranged over last. C82_exact: exactly the languages in which the facts of each item are rendered; C82_uniform_partial: right for all items if all labels have texts in the same roles and languages.")
c("C83","partial",["C83_one_partial","C83_fails","C83_exact"],"False of the code: the domains of all dimensions are listed for each of them (witness). Proved when only one dimension has domains and defaults. C83_exact: exactly when only members of the dimension are listed.")
c("C84","partial",["C84_default_partial","C84_fails","C84_exact"],"False of the code: under an exclusive hypercube the defaults of all dimensions are listed (witness). Proved for members not struck through. C84_exact: exactly when only defaults of the dimension are marked.")
c("C85","proved",["C85_roots"])
c("C86","partial",["C86_dimensions_partial","C86_fails","C86_exact","C86_further_fails"],"False of the code with two definition linkbases (witness). Proved with one. C86_exact: exactly which dimensions there are with any number of linkbases; C86_further_fails: a further linkbase without the locator always adds one that does not exist.")
c("C87","proved",["C87_numeric","C87_not_a_number","C87_english_unlabelled"],"digits.New and the multiplication by 100 are parameters")
c("C88","proved",["C88_expression","C88_nothing"])
c("C89","proved",["C89_period"])
c("C90","partial",["C90_no_panic_partial","C90_fails_no_document","C90_fails_instance"],"False of the code: without inline document every request panics, with several instances some do (witnesses). Proved: exactly when it panics.")
c("C91","partial",["C91_rows_partial","C91_fails","C91_other_fails"],"False of the code: a typed dimension of another context of the concept removes all rows (witness). Proved when all typed dimensions are those of the context. C91_other_fails: so for every such context.")
c("C92","proved",["C92_presentation"])
c("C93","proved",["C93_calculation","C93_definition"])
c("C94","partial",["C94_shown_partial","C94_fails","C94_exact"],"False of the code: of two facts with the same concept and context, say in two currencies, one is shown nowhere (witness). Proved for facts without such a rival. C94_exact: a fact is shown exactly if it is the first with its concept and context.")
c("C95","proved",["C95_discovered","C95_right"],"C95_right is the statement for a grid, C95_discovered the one for folders on disk; C95_two_instances shows that the hypothesis of C95_right is needed for folders that Discover does not produce.")
c("C96","partial",["C96_languages_partial","C96_exact","C96_fails"],"False of the code: languages collected by the other grids are offered too, and so is Truncated, in which no fact has a text (witness). Proved for the languages of the presentation grid. Exactly (C96_exact): a fact has a text in English, Spanish or Unlabelled if, for some role, the last label with that role of those that the grid names has one.")
c("C97","proved",["C97_headers"])
c("C98","proved",["C98_unlabelled"])
c("C99","proved",["C99_instance","C99_schema","C99_linkbase","C99_registry"],"Over element trees; C119 says which texts are which trees.")
c("C100","partial",["C100_exact","C100_kept_partial","C100_fails"],"False of the code: a concept named like a part of an instance (unit) and facts inside tuples are lost (witnesses). Proved for children of the root without a reserved name; C100_exact: the claim holds of an instance if and only if every other fact element has a counterpart among these.")
c("C101","proved",["C101_succeeds","C101_entries","C101_disk"])
c("C102","proved",["C102_shown"],"Under the hypotheses of the statement: one schema, local or published, for the namespace, distinct names and ids, no '#' in ids.")
c("C103","proved",["C103_catalog","C103_facts","C103_renderable","C103_other"],"Routing of gorilla/mux 1.8.1 is modelled from its documentation; the file server is a parameter.")
c("C104","proved",["C104_directory","C104_absolute"])
c("C105","partial",["C105_file","C105_only_own_files_partial","C105_fails","C105_out_fails"],"False of the code: a reference ../b/x.xsd reads a file of another folder (witness). Exact: where a reference leads and when that is inside the folder. Proved when no reference of the folder leads out of it. C105_out_fails: with every reference that leads out, what is discovered depends on a file outside.")
c("C106","proved",["C106_base64","C106_images","C106_shown"],"Names in a directory are distinct. html.Parse and html.Render are outside the model; DetectContentType is modelled for the two types only.")
c("C107","partial",["C107_decodes","C107_known_partial","C107_exact","C107_fails"],"False of the code: fractions are not read, and a prefix declared below the html element makes hydration fail (witnesses). Exact: which elements are read. Proved: when the prefixes of the text and number facts are declared on the html element and no such fact is malformed, exactly their names and contexts are known. C107_exact: exactly for which documents the claim holds.")
c("C108","proved",["C108_subjects","C108_relationship_sets","C108_networks","C108_document"],"Roles of later annotations or appinfos are lost; that is C74_fails.")
c("C109","proved",["C109_reads_back","C109_tame","C109_reader"],"encoding/json modelled: numbers are kept as written, lone surrogate escapes are an error here.")
c("C110","proved",["C110_order","C110_contents","C110_deterministic","C110_reload","C110_loadable"])
c("C111","proved",["C111_metadata","C111_truncated","C111_round_trip","C111_crash"],"encoding/json and UTF-8 decoding of invalid bytes to U+FFFD are modelled.")
c("C112","proved",["C112_accepted","C112_query"])
c("C113","proved",["C113_valid","C113_parts"],"net/url of Go 1.22 is modelled from knowledge of its source; newer versions reject some more hosts. Bytes are represented as characters.")
c("C114","partial",["C114_named_partial","C114_fails"],"False of the code: http://:80/x.xsd is accepted but has no file name (witness). Exact: which valid URLs have one.")
c("C115","proved",["C115_same_file","C115_inside"],"C08_fails_url shows a URL that climbs out.")
c("C116","proved",["C116_renderable"],"Labels are maps with distinct keys (they are: getLabel_wf). Text is a list of characters; invalid UTF-8 is outside the model.")
c("C117","proved",["C117_expression"],"As for C116.")
c("C118","proved",["C118_served"],"Under the hypotheses of C102, for facts without a decimals attribute. The text is the source text between the tags, so that entities are not decoded.")
c("C119","proved",["C119_tree","C119_unique","C119_inside","C119_declaration","C119_declaration_unclosed"],"encoding/xml of Go 1.22 is modelled from knowledge of its source, on characters after conversion. The grammar is the one the decoder accepts where C120 says it is laxer than XML.")
c("C120","partial",["C120_partial","C120_exact","C120_fails","C120_after_fails"],"False of the code: garbage after the root element, repeated attributes and undeclared prefixes are accepted (witnesses). Proved: the root element itself is well-formed. C120_exact: exactly which texts are read; C120_after_fails: whatever follows a file that is read, it is read as before.")
c("C121","partial",["C121_ends_partial","C121_tokens","C121_fails","C121_all_fails"],"False of the code: an XML declaration with an encoding inside a typed member makes loading loop forever (witness, from texts). Proved for files without <?xml inside typed members. C121_all_fails: no folder is ever loaded in which a typed member of a known dimension begins with a declaration that its decoder does not accept.")
c("C122","partial",["C122_text_partial","C122_exact","C122_fails"],"False of the code: facts are shown as their source text, so that A &amp; B and the same in a CDATA section are shown differently and neither as A & B (witness, from texts to cells). Exact: when source text and value agree (C122_text_partial), and hence when the client finds the value (C122_exact, under the hypotheses of C118).")
c("C123","proved",["C123_text"],"Under the hypotheses of C118.")
c("C124","proved",["C124_catalog_same","C124_catalog","C124_follow","C124_fact","C124_served"],"The files do not change while the server runs. Following a slug leads to the network it was advertised for if no two networks of the folder have the same slug (C35 is about when they have). An answer is given if the computation ends; a panic is a possible end.")
c("C125","proved",["C125_same","C125_follow","C125_served","C125_fact"],"As for C124. Folder ids are path segments; a handler that panics sends nothing.")
c("C126","partial",["C126_partial","C126_exact","C126_fails"],"False of the code: hydration is the same with and without the attributes use and priority (for all files); a relationship whose only arc is prohibited is hydrated (witness). Proved: for roles without prohibiting arcs. Exactly (C126_exact): what is in force is always hydrated, and nothing else is if every prohibited relationship is put in force again by an arc of a higher priority.")
c("C127","partial",["C127_own_partial","C127_fails","C127_exact"],"False of the code: two links of a role that use the same labels for different concepts are mixed up, and no row is about the concepts of the second (witness, for every tree builder). Proved for labels that stand for one concept in the role. C127_exact: all labels of a role are right exactly if none stands for two concepts.")
c("C128","partial",["C128_labels_partial","C128_fails"],"False of the code: rows do not depend on preferredLabel (for all linkbases). Proved: a row has all labels of its concept.")
c("C129","partial",["C129_own_partial","C129_fails","C129_exact"],"False of the code: a primary item without hypercubes of its own has an empty effective domain (for all networks). Proved for items that have all hypercubes above them. Exactly (in tidy networks): when an item that inherits a hypercube with the dimension has one itself (C129_exact).")
c("C130","partial",["C130_usable_partial","C130_fails"],"False of the code: root domains do not depend on usable (for all linkbases and schedules); a member whose only arc is not usable is listed (witness, from attributes). Proved for members to which only usable arcs point.")
c("C131","partial",["C131_ends_partial","C131_fails"],"False of the code: root domains do not depend on targetRole, and relationship sets look up the end of such an arc in the target role, so that x#c becomes #c (witnesses, from attributes). Proved for arcs without target role.")
c("C132","proved",["C132_arcs","C132_rows","forest_exists"],"Relative to the contract IsForest of the tree builder (joshuanario/arcs, whose source is not available), which a builder meets for all arcs without cycles (forest_exists).")
c("C133","proved",["C133_fact","C133_tagged","C133_served","C133_http"],"As for C124. C133_served: the program may also panic, if loading may, if a fact of the concept refers to a context that is not there, or if a typed domain tree has a node without name.")
c("C134","partial",["C134_exact","C134_labels_partial","C134_partial","C134_fails"],"False of the code: an arc without order is dropped from presentation, definition and calculation links (witness); C134_exact says exactly what is hydrated. Proved for roles all of whose arcs have an order, and for label links.")
c("C135","proved",["C135_document","C135_same","C135_served","C135_only","C135_http"],"As for C124. golang.org/x/net/html is two parameters: parsing and writing trees, both may fail. Loading the folder may panic.")
c("C136","partial",["C136_one_partial","C136_fails","C136_witness","C136_exact"],"False of the code: if two hypercubes that an item includes have the dimension, nothing is listed but struck through (for all networks; witness). Proved for one hypercube, in networks that do not mention a member twice. Exactly (in tidy networks): when one and only one hypercube of the item has the dimension (C136_exact).")
c("C137","partial",["C137_roles_partial","C137_exact","C137_fails","C137_fails_instance","C137_witness"],"False of the code: a linkbase that is referred to without a role is in no folder (for all folders; witness), and discovery does not depend on the linkbaseRef elements of the instance (for all folders). Proved for schemas all of whose references have a role. C137_exact: of the references of schemas, the claim holds exactly if every linkbase that can be read is also referred to with its role.")
c("C138","partial",["C138_kept_partial","C138_exact","C138_fails","C138_fails_prefix","C138_witness"],"False of the code: a member with white space after its name, or with a prefix not declared on the root element, is dropped, so that the fact is in the column without the member (for all instances; witness). Proved for names without white space and prefixes of the root element. C138_exact: a member makes a difference exactly if both names, as written and by the declarations of the root element, are those of concepts.")
c("C139","partial",["C139_order_partial","C139_fails","C139_witness","C139_exact"],"False of the code: columns are compared by period, number of members and first member, and those that agree are shown in the order of their facts (witness). Proved if no two columns agree in these. C139_exact: of one instance, exactly then.")
c("C140","proved",["C140_arcs","C140_items"],"For labels that stand for one concept in the role (C127_fails), orders that are not NaN, and labels that include the href (they do: C49).")
c("C141","partial",["C141_months_partial","C141_fails","C141_exact"],"False of the code: every calendar month of fewer than 31 days is headed by its two dates (for all of them), and a fiscal year of 52 weeks by 13 months (witness). Proved for two or more whole months and for months of 31 days. C141_exact: a duration of whole calendar months is headed by their number exactly if it has two or more of them or the month has 31 days.")
c("C142","partial",["C142_exact","C142_partial","C142_fails"],"False of the code: 2019-01-01/2019-12-31 and 2019-01-20/2019-12-31 have the same header (witness). C142_exact says exactly which durations do. Proved for durations that begin with a month.")
c("C143","partial",["C143_number","C143_other","C143_order_partial","C143_separated_partial","C143_fails"],"False of the code: an order with white space around it is put last, and orders that differ after the sixteenth digit are the same (witnesses, from attributes to rows). Proved for numbers of up to 15 digits, and for numbers of any number of digits if no double is nearest to both, under the hypotheses of C132. strconv.ParseFloat is modelled on decimal numbers as rounding to the nearest double.")
c("C144","partial",["C144_weight_partial","C144_nearest_partial","C144_fails"],"False of the code: a weight with white space around it is shown as + 0.0, and digits after the sixteenth are lost (witnesses, from attributes to items). Proved for numbers of up to 14 digits; with more digits the sign is right and the value is that of a double nearest to the number; under the hypotheses of C140.")
c("C145","partial",["C145_shown_partial","C145_fails"],"False of the code: one typed member without content hides the typed rows of all columns, and of two typed dimensions of a context one value is not shown (witnesses). Proved for folders with one typed dimension whose elements all have a text, relative to the contract of the tree builder.")
c("C146","proved",["C146_labels","C146_shown"],"Which of several texts with one role and language is shown depends on the order of the label linkbases; all orders are covered.")
c("C147","partial",["C147_published_fails","C147_located_partial"],"False of the code: a published schema to which the instance refers is downloaded, but neither its namespace nor its roles are recorded; if there are no other schema references no fact is read and nothing is listed. It holds for facts of published schemas that a file of the folder imports.")
c("C148","partial",["C148_several_files_fails","C147_located_partial"],"False of the code: every file of the namespace overwrites the location of the others. With the concepts of two facts in two files at most one of the facts is read. It holds when the namespace has one location.")
c("C149","partial",["C149_respelled_fails","C149_row_partial"],"False of the code: references are compared as texts. A row shows only facts of concepts whose location and id spell its reference; that it shows them is C102.")
c("C150","partial",["C150_alike_fails","C150_once_partial"],"False of the code: there is a column for every context identifier. Of a single instance every context has one column.")
c("C151","partial",["C151_published_fails","C151_local_partial"],"False of the code: published linkbases are downloaded and not read. It holds for the linkbases of the folder.")
c("C152","partial",["C152_measure_partial","C152_file_partial","C152_none_partial","C152_divide_fails"],"False of the code: a unit that divides is shown as its numerator, because the denominator is looked up by the name of the numerator. It holds for units that are measures; a number without a unit of the instance is shown without one.")
c("C153","partial",["C153_partial","C153_single_partial","C153_fails"],"False of the code with two footnotes: numbers are counted for every cell in the order of another range over the map (witness, from the files to the client). Proved for all orders: as many numbers as footnotes, increasing and within bounds, and the texts of the footnotes are among those of the grid, for tidy links; with one footnote the number is right.")
c("C154","partial",["C154_disk_partial","C154_isolated_partial","C154_loading_partial","C154_rendering_partial","C154_astray_fails","C154_fails","C154_document_fails"],"False of the code: a fact that refers to a context that is not there panics in a goroutine of MarshalRenderable, which nothing recovers, as soon as a grid with its concept is asked for (C154_astray_fails, for all folders; witness C154_fails); a malformed inline fact does so while the folder is loaded (exactly when: C154_loading_partial; witness C154_document_fails). Proved for folders whose facts refer to contexts that are there, without typed members and malformed inline facts. That net/http recovers panics of the goroutine that serves a request is trusted; requests that do not come to an end are C11, C25 and C121.")
c("C155","partial",["C155_served","C155_unusable","C155_main","C155_fails","C155_panics"],"False of the code: a program that only runs dry never answers a request about a folder with anything but an error, because units, names and published schemas are read through the cache that is then missing. Proved exactly: which sequences of calls make the packages usable, and that the set-up of the server is one of them. Dry mode works after a cache was made once. A program that never makes a cache panics at every request about a folder.")
c("C156","partial",["C156_close_partial","C156_long_partial","C156_whole","C156_accuracy","C156_fails","C156_accuracy_fails"],"False of the code: value and product are rounded towards zero, so a whole number of percent is formatted as itself exactly if it is a multiple of 25, and otherwise as a smaller number (seven percent as 6.99…), for every precision (C156_whole, C156_fails); the number of decimals is not lowered by two. What holds: the amount is right up to five units of the last bit (six from 28 decimals on, where math/big rounds the power of five: C156_long_partial, up to 2^60 decimals). What the package digits makes of the amount is not modelled; of Text('f', -1) its documentation is assumed (met by exactText). C156_whole is for values with at most 27 decimals.")
c("C157","proved",["C157_exact","C157_default","C157_variables"],"Exactly which directories the file server reaches, for all paths and methods. Names of files only: symbolic links are not modelled; relative paths in WD and GTS are outside. http.FileServer and http.Dir are modelled from their source.")
c("C158","partial",["C158_kept","C158_folders_partial","C158_grows_fails","C158_server_fails"],"False of the code: every name that is asked for and is not there leaves an entry, and entries are never removed; for every folder that loads and every n there are requests, none of them successful, that leave n entries. Nothing is kept for folders that are not discovered.")
c("C159","partial",["C159_table_partial","C159_nested_fails","C159_rows_fails"],"False of the code: rowspan has no effect, and an inner cell closes the columns of the cell around it. Proved for all tables without tables in their cells: rows, cells, columns and texts are shown in their order.")
c("C160","partial",["C160_linear_partial","C160_fails","C160_bounds"],"False of the code: one tag with a large colspan is written that many times. Proved without colspan: at most two pieces a token. C160_bounds, for all text blocks: if the cells span m columns more than there are cells, there are at least m pieces and at most 2m pieces more than tokens.")
c("C161","partial",["C161_exact","C161_partial","C161_fails","C161_forever_fails"],"False of the code: white space and time zones are not understood, so such a period is shown as it is written; a period that lasts for ever, or that has no instant and no start, has an empty header. Exactly the dates written in ten characters are shown in words.")
c("C162","partial",["C162_loads","C162_exact","C162_once_partial","C162_fails"],"False of the code: a file is read once for every way of references that leads to it (C162_loads, exact); there are folders with n+1 files and 2^(n+1)-1 reads for every n. Exactly the files with one way are read once.")
c("C163","partial",["C163_exact","C163_direct_partial","C163_unread_fails","C163_fails"],"False of the code: every reference is taken from the directory of the folder. Exactly the references in files directly in that directory are read as meant; any other file that is meant has no influence.")
c("C164","proved",["C164_prefixes","C164_answers"],"For all answers without cache (C60 has the relation to those with it). Names in unit measures, dimension attributes, explicit members and the elements of typed members; the namespaces of elements are resolved by encoding/xml before. Spellings are related by the specification of prefixed names (C01).")
c("C165","partial",["C165_order_partial","C165_exact","C165_fails"],"False of the code: of facts with the same id (or without), concept and context the first is shown. Proved if contexts, units and facts with the same id stay in their order, as do schema references and footnote links; C165_exact: the facts read are the same exactly if those of the same id are in the same order.")
c("C166","partial",["C166_root_partial","C166_fails","C166_witness"],"False of the code: encoding/xml delivers the namespace instead of the prefix, which Xmlns takes for a prefixed name; for all such members nothing is recorded or the program panics. Proved for prefixes that the root declares.")
c("C167","proved",["C167_agree"],"For presentation, definition and calculation grids of one loaded folder, with orders of maps chosen separately for the two answers (but for the order of several label linkbases, on which labels depend, C176_label_fails). Compared are the text without language and the English one; the labels of rows only in the presentation. The conditions on members and footnotes are part of the statement (OneEach, SameNotes).")
c("C168","proved",["C168_answers","C168_served"],"C168_answers for all requests about the folder, without cache. C168_served for all histories with the cache, under the assumption of C60 (Normal: no two calls share a key; C62 has the calls that do), and with the exception of C60: the body of a failed request may be repeated as a success.")
c("C169","partial",["C169_answers_partial","C169_served_partial","C169_image","C169_fails","C169_panic_fails"],"False of the code: every image file of the folder is taken, shown or not, and with the first of them the document is no longer copied but parsed and written again (C169_image, exactly what one more image does; C169_fails for all folders whose document is not written as it is read; golang.org/x/net/html is two parameters); if the document cannot be decoded the error becomes a panic. Proved for further files that are no images: the programs below the cache are equal, so all histories are.")
c("C170","proved",["C170_slugs","C170_leads","C170_keys"],"FNV-1a itself is modelled (hash/fnv; its published test vectors are examples beside the theorems), not assumed to be free of collisions: the difference of two states is the value of a polynomial with small coefficients at the prime 2^88+315. Ten bytes are what the proof covers; for arbitrary texts there are collisions (C35, C62).")
c("C171","proved",["C171_calculation","C171_calculation_only","C171_presentation","C171_presentation_only","C171_definition","C171_definition_only"],"From the bytes of the folder to the bytes of the answer (Followed). The conditions are part of the statement; without them it is false (roles in several linkbases C46_fails, labels with several concepts C127_fails). Hypotheses besides: no two networks of the folder share a slug (Unambiguous), no order is NaN, the tree builder joshuanario/arcs is a parameter assumed to build the forest of the arcs (TreeGood; met by forest), and links of a definition arc with a target role need a reference to it. A site that meets all hypotheses is in Props/FollowedArcsDemo.")
c("C172","partial",["C172_stale_fails","C172_old_fails","C172_broken_fails","C172_new_partial","C172_dry","C172_served_fails","C172_served_partial"],"False of the code; the exact extent is proved in both directions: kept for ever once answered about (C172_stale_fails), panics for ever if not loadable at first (C172_broken_fails), current if not there or not asked about before (C172_new_partial), current with caching off (C172_dry). The change happens when no call is in progress and no write is outstanding; what is computed from a loaded folder is the same function before and after (SameRest). Which of the answers of a version is given is as in C60 (AnswersAs).")
c("C173","partial",["C173_partial","C173_served_partial","C173_catalog_partial","C173_mixed_fails"],"False of the code (C173_mixed_fails: a change between an answer and its write). Proved for any number of changes at quiet moments (Phases); C173_served_partial carries it to the files of folders, so that what is proved of a server on constant files holds of each answer for one version.")
c("C174","proved",["C174_discover_maps","C174_discover_refines","C174_discover_orders","C174_decode_maps","C174_hydrate_maps"],"Executions of Model/Threads (fork, join, mutex, one access at a time) for the goroutines of Model/Goroutines. C174_discover_refines is what the model of discovery (Model/Discover) assumes: the writes, in some order. C174_discover_orders: exactly the orders of Disc.Runs, which the model of the server uses. Searches that do not end are covered by all their depths. The cache library go-cache locks its own maps and is not looked into.")
c("C175","partial",["C175_decode_fails","C175_render_fails","C175_render_exact","C175_hydrate_exact","C175_partial"],"False of the code, for every document and for every renderable. Exact: for which variables the goroutines of each of the three functions race, and when. Discovery has no race. The other models take the accesses that race as atomic, which Go does not promise.")
c("C176","partial",["C176_expression_partial","C176_label","C176_label_fails","C176_renderable_partial","C176_first_fails","C176_fails"],"False of the code. C176_expression_partial has the answers about facts, for folders with at most one label linkbase, or label linkbases taken in the same order. C176_label_fails: if two label linkbases give the concept different texts, the same request may be answered in two ways; C176_label: the text of each is in some answer. C176_fails: whenever a client finds two languages in a renderable, the same request may get other bytes; C176_first_fails: each of its languages may come first. C176_renderable_partial says what is the same for all orders and schedules (ByChance), for at most one linkbase of a kind (with several the order of linkbases shows, C81_fails). Which folder is loaded is fixed; C124 has the catalogs of two loads.")
c("C177","partial",["C177_catalog","C177_expression_partial","C177_renderable_partial","C177_determined_partial","C177_fails"],"False of the code. C177_fails: two loads of a folder, of which one answers with a fact and the other never does; its report refers to two schemas with the same namespace, and both orders are ones that the goroutines can produce. C177_catalog: catalogs and documents are the same. C177_expression_partial, C177_renderable_partial: the same answers are possible if no namespace has two locations that it may be given last (OneHome). C177_determined_partial: with at most one label linkbase there is one answer about a fact.")
c("C178","proved",["C178_exact","C178_executions","C178_fails"],"C178_executions: after an execution of the goroutines of Model/Goroutines, a namespace may have exactly the locations of Finally. C178_exact: over the orders that the goroutines can produce (Realised), the locations that a namespace may have after discovery are exactly those of Finally. C178_fails: in no load is a namespace looked up in a file that includes another of the namespace, or leads to one that does; facts whose concepts are declared only there are never read.")
c("C179","proved",["C179_catalog","C179_request"],"The specification (Spec/Hash) is independent of the model of hash/fnv: 128-bit words, the prime as a sum of powers, and the offset basis as the FNV-0 hash of the signature from which the authors derived it; numerals by the value of their digits. The registry of names is supposed to be readable (C59).")
