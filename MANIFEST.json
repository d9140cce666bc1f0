{
 "claims": [
  {
   "property": "C01",
   "status": "proved",
   "theorems": [
    "Oxml.C01_column_roundtrip",
    "Oxml.C01_column_name_value"
   ],
   "note": "All columns 1..65535, both build profiles."
  },
  {
   "property": "C02",
   "status": "proved",
   "theorems": [
    "Oxml.C02_letters_checked",
    "Oxml.C02_letters_release",
    "Oxml.C02_case_insensitive"
   ],
   "note": "Checked build: exact failure boundary. Release build: value modulo 65536 (wraps)."
  },
  {
   "property": "C03",
   "status": "proved",
   "theorems": [
    "Oxml.C03_column_order",
    "Oxml.C03_zero_rejected"
   ],
   "note": ""
  },
  {
   "property": "C04",
   "status": "proved",
   "theorems": [
    "Oxml.C04_cell_ref_roundtrip"
   ],
   "note": ""
  },
  {
   "property": "C05",
   "status": "partial",
   "theorems": [
    "Oxml.C05_violated",
    "Oxml.C05_partial"
   ],
   "note": "False as stated (C05_violated: digits are collected anywhere in the text); C05_partial gives the references that are rejected."
  },
  {
   "property": "C06",
   "status": "proved",
   "theorems": [
    "Oxml.C06_escape_lossless",
    "Oxml.C06_escape_markup_safe",
    "Oxml.C06_escape_injective"
   ],
   "note": ""
  },
  {
   "property": "C07",
   "status": "proved",
   "theorems": [
    "Oxml.C07_write_total"
   ],
   "note": "For every document that is empty or read from text and then edited in any way."
  },
  {
   "property": "C08",
   "status": "proved",
   "theorems": [
    "Oxml.C08_reload_exact",
    "Oxml.C08_roundtrip",
    "Oxml.C08_selfclosing_unreadable"
   ],
   "note": "Exact reload theorem, the identity on plain documents, and the excluded self-closing root shown unreadable."
  },
  {
   "property": "C09",
   "status": "partial",
   "theorems": [
    "Oxml.C09_violated",
    "Oxml.C09_partial"
   ],
   "note": "False as stated (C09_violated: values are read raw and written escaped); C09_partial: exactly the values without special characters survive."
  },
  {
   "property": "C10",
   "status": "partial",
   "theorems": [
    "Oxml.C10_violated",
    "Oxml.C10_partial"
   ],
   "note": "False as stated (C10_violated: white space is trimmed); C10_partial: exactly the trimmed non-empty texts survive."
  },
  {
   "property": "C11",
   "status": "proved",
   "theorems": [
    "Oxml.C11_tree_integrity",
    "Oxml.C11_ids_fresh"
   ],
   "note": ""
  },
  {
   "property": "C12",
   "status": "proved",
   "theorems": [
    "Oxml.C12_order_children",
    "Oxml.C12_order_child_document"
   ],
   "note": ""
  },
  {
   "property": "C13",
   "status": "proved",
   "theorems": [
    "Oxml.C13_names_legal",
    "Oxml.C13_illegal_refused"
   ],
   "note": ""
  },
  {
   "property": "C14",
   "status": "partial",
   "theorems": [
    "Oxml.C14_violated",
    "Oxml.C14_partial"
   ],
   "note": "False as stated (C14_violated: declarations below the root are hoisted); C14_partial: document-wide bindings survive."
  },
  {
   "property": "C15",
   "status": "proved",
   "theorems": [
    "Oxml.C15_untouched_preserved",
    "Oxml.C15_save_succeeds_iff"
   ],
   "note": "Also: saving succeeds exactly when no part is called like the content type part."
  },
  {
   "property": "C16",
   "status": "proved",
   "theorems": [
    "Oxml.C16_names_grow",
    "Oxml.C16_open_once",
    "Oxml.C16_close_idempotent",
    "Oxml.C16_open_close_content"
   ],
   "note": ""
  },
  {
   "property": "C17",
   "status": "partial",
   "theorems": [
    "Oxml.C17_types_cover",
    "Oxml.C17_violated",
    "Oxml.C17_reload_partial",
    "Oxml.C17_empty_unreadable"
   ],
   "note": "Coverage proved (C17_types_cover). Reload false as stated (C17_violated: names with special characters); C17_reload_partial for plain names; an empty package cannot be reloaded."
  },
  {
   "property": "C18",
   "status": "partial",
   "theorems": [
    "Oxml.C18_violated",
    "Oxml.C18_partial"
   ],
   "note": "False as stated (C18_violated); C18_partial: unique exactly when parts agree on the type of each extension."
  },
  {
   "property": "C19",
   "status": "partial",
   "theorems": [
    "Oxml.C19_violated",
    "Oxml.C19_partial"
   ],
   "note": "False as stated (C19_violated: crash after removal); C19_partial gives failure atomicity before disk effects, complete runs, other files, and all crash states."
  },
  {
   "property": "C20",
   "status": "partial",
   "theorems": [
    "Oxml.C20_violated",
    "Oxml.C20_partial"
   ],
   "note": "False as stated (C20_violated: unreadable parts are dropped); C20_partial: everything else is untouched."
  },
  {
   "property": "C21",
   "status": "proved",
   "theorems": [
    "Oxml.C21_new_id_fresh",
    "Oxml.C21_ids_unique"
   ],
   "note": "Every history of add, look-up-or-create and delete, from any loaded list with distinct ids."
  },
  {
   "property": "C22",
   "status": "proved",
   "theorems": [
    "Oxml.C22_by_id",
    "Oxml.C22_by_type"
   ],
   "note": "For relationship parts whose path contains _rels (all paths the library builds); by id and by type, after any later history not deleting the target."
  },
  {
   "property": "C23",
   "status": "partial",
   "theorems": [
    "Oxml.C23_violated",
    "Oxml.C23_partial"
   ],
   "note": "Refuted as stated (C23_violated): texts with special characters come back escaped twice. C23_partial gives the exact result for every document."
  },
  {
   "property": "C24",
   "status": "proved",
   "theorems": [
    "Oxml.C24_ids_permanent",
    "Oxml.C24_ids_distinct",
    "Oxml.C24_entries_stay"
   ],
   "note": "Every table, every insertion history."
  },
  {
   "property": "C25",
   "status": "partial",
   "theorems": [
    "Oxml.C25_violated",
    "Oxml.C25_partial"
   ],
   "note": "Refuted as stated (C25_violated): surrounding white space is lost. C25_partial gives the exact result; counts are proved in full."
  },
  {
   "property": "C26",
   "status": "partial",
   "theorems": [
    "Oxml.C26_violated",
    "Oxml.C26_violated_from_file",
    "Oxml.C26_partial"
   ],
   "note": "Refuted as stated (C26_violated, and from file text in C26_violated_from_file): empty items shift indices, rich text is lost. C26_partial: parts with simple items only."
  },
  {
   "property": "C27",
   "status": "proved",
   "theorems": [
    "Oxml.C27_last_write_wins",
    "Oxml.C27_sheet_sorted",
    "Oxml.C27_by_reference"
   ],
   "note": "All histories of row writes (columns 1..65535), row property and column changes on any sheet; also by reference."
  },
  {
   "property": "C28",
   "status": "proved",
   "theorems": [
    "Oxml.C28_independent",
    "Oxml.C28_other_rows"
   ],
   "note": ""
  },
  {
   "property": "C29",
   "status": "proved",
   "theorems": [
    "Oxml.C29_automatic",
    "Oxml.C29_explicit"
   ],
   "note": "Automatic and explicit types, for every text."
  },
  {
   "property": "C30",
   "status": "partial",
   "theorems": [
    "Oxml.C30_violated",
    "Oxml.C30_partial"
   ],
   "note": "Refuted as stated (C30_violated: rows without cells widen the rectangle). C30_partial: every sheet whose first and last row have cells."
  },
  {
   "property": "C31",
   "status": "proved",
   "theorems": [
    "Oxml.C31_increasing",
    "Oxml.C31_loaded"
   ],
   "note": ""
  },
  {
   "property": "C32",
   "status": "partial",
   "theorems": [
    "Oxml.C32_saveable",
    "Oxml.C32_violated",
    "Oxml.C32_partial",
    "Oxml.C32_partial_same",
    "Oxml.C32_good_saveable",
    "Oxml.C32_reachable",
    "Oxml.C32_partial_session",
    "Oxml.C32_env_prints"
   ],
   "note": "Refuted as stated (C32_violated: surrounding white space is lost). C32_partial: exact cell after save and load for every sheet; C32_partial_same: exactly which cells come back unchanged; C32_partial_session: whole open-edit-save-reopen sessions."
  },
  {
   "property": "C33",
   "status": "partial",
   "theorems": [
    "Oxml.C33_partial",
    "Oxml.C33_partial_same",
    "Oxml.C33_saveable",
    "Oxml.C33_saved",
    "Oxml.C33_violated"
   ],
   "note": "Refuted as stated (C33_violated: flags set to false come back true). C33_partial and C33_partial_same give the exact result."
  },
  {
   "property": "C34",
   "status": "partial",
   "theorems": [
    "Oxml.C34_exact",
    "Oxml.C34_never",
    "Oxml.C34_cut",
    "Oxml.C34_exact_example",
    "Oxml.C34_violated",
    "Oxml.C34_violated_range",
    "Oxml.C34_partial"
   ],
   "note": "Refuted as stated (C34_violated: no effect without column settings; C34_violated_range: columns right of a split range lose their settings). C34_partial: one call, all other cases. C34_exact: every column after any number of calls, for every list of ranges; C34_never: sheets without column settings never get any."
  },
  {
   "property": "C35",
   "status": "partial",
   "theorems": [
    "Oxml.C35_partial",
    "Oxml.C35_partial_same",
    "Oxml.C35_saveable",
    "Oxml.C35_saved",
    "Oxml.C35_violated"
   ],
   "note": "Refuted as stated (C35_violated: outline levels are lost). C35_partial and C35_partial_same give the exact result."
  },
  {
   "property": "C36",
   "status": "partial",
   "theorems": [
    "Oxml.C36_partial",
    "Oxml.C36_violated_always",
    "Oxml.C36_violated"
   ],
   "note": "Refuted as stated, for every sheet (C36_violated_always: each open and close adds a view). C36_partial gives the exact list."
  },
  {
   "property": "C37",
   "status": "partial",
   "theorems": [
    "Oxml.C37_violated",
    "Oxml.C37_partial",
    "Oxml.C37_partial_open"
   ],
   "note": "Refuted as stated (C37_violated: sheetProtection is moved to the end). C37_partial: nothing lost, per-tag order kept, schema order and exact order for tags the library knows."
  },
  {
   "property": "C38",
   "status": "partial",
   "theorems": [
    "Oxml.C38_call",
    "Oxml.C38_partial",
    "Oxml.C38_violated"
   ],
   "note": "Refuted when a call fails (C38_violated). C38_partial: every history of successful calls from any state; C38_call: each successful call."
  },
  {
   "property": "C39",
   "status": "partial",
   "theorems": [
    "Oxml.C39_violated",
    "Oxml.C39_call",
    "Oxml.C39_partial"
   ],
   "note": "Refuted as stated (C39_violated: a default name repeats a listed name). C39_partial: every history, failed calls included, without default names."
  },
  {
   "property": "C40",
   "status": "proved",
   "theorems": [
    "Oxml.C40_rename"
   ],
   "note": "Every state, at the level of the call."
  },
  {
   "property": "C41",
   "status": "partial",
   "theorems": [
    "Oxml.C41_violated",
    "Oxml.C41_hide_exact",
    "Oxml.C41_partial"
   ],
   "note": "Refuted as stated (C41_violated: hiding a sheet shows the others again). C41_hide_exact gives the exact saved result; C41_partial: no other sheet hidden."
  },
  {
   "property": "C42",
   "status": "partial",
   "theorems": [
    "Oxml.C42_last_value",
    "Oxml.C42_reload",
    "Oxml.C42_partial",
    "Oxml.C42_violated"
   ],
   "note": "Refuted as stated, always (C42_violated: the tab bar flag comes back inverted). C42_last_value: in memory, every history; C42_reload: exact result of saving and loading; C42_partial: all other settings."
  },
  {
   "property": "C43",
   "status": "partial",
   "theorems": [
    "Oxml.C43_flags",
    "Oxml.C43_not_saved",
    "Oxml.C43_violated"
   ],
   "note": "Refuted in every state (C43_not_saved, C43_violated): the saved package does not depend on the active sheet. C43_flags: the flag in memory is set exactly."
  },
  {
   "property": "C44",
   "status": "partial",
   "theorems": [
    "Oxml.C44_order",
    "Oxml.C44_partial",
    "Oxml.C44_violated"
   ],
   "note": "Refuted as stated (C44_violated: rename, then delete through the handle). C44_order: every history; C44_partial: histories that keep names distinct, whose additions succeed and that rename no sheet with an open handle."
  },
  {
   "property": "C45",
   "status": "partial",
   "theorems": [
    "Oxml.C45_partial",
    "Oxml.C45_reloaded",
    "Oxml.C45_partial_once",
    "Oxml.C45_violated",
    "Oxml.C45_default"
   ],
   "note": "Refuted whenever a handle is open when saving (C45_violated: its part is unreadable). C45_partial: end to end, from the writes through dropping the handle, any further calls, saving, reading and loading; C45_default: the default sheet is always readable and empty."
  },
  {
   "property": "C46",
   "status": "partial",
   "theorems": [
    "Oxml.C46_partial",
    "Oxml.C46_violated"
   ],
   "note": "Refuted in every history (C46_violated: the part stays in the package). C46_partial: name, relationship and all other sheets."
  },
  {
   "property": "C47",
   "status": "partial",
   "theorems": [
    "Oxml.C47_violated_existing",
    "Oxml.C47_partial",
    "Oxml.C47_violated_default",
    "Oxml.C47_violated"
   ],
   "note": "Refuted in every history of a new workbook (C47_violated): opening a listed sheet always fails; the default sheet can never be opened at all (C47_violated_default). In existing workbooks it fails for sheets without relationships (C47_violated_existing) and holds for sheets that have some (C47_partial), whatever is done in between."
  },
  {
   "property": "C48",
   "status": "partial",
   "theorems": [
    "Oxml.C48_violated"
   ],
   "note": "Refuted in every history of a new workbook (C48_violated): no saved file can be opened again."
  },
  {
   "property": "C49",
   "status": "partial",
   "theorems": [
    "Oxml.C49_partial",
    "Oxml.C49_violated"
   ],
   "note": "Refuted as stated (C49_violated). C49_partial: at most the asked name is appended, nothing for listed names."
  },
  {
   "property": "C50",
   "status": "partial",
   "theorems": [
    "Oxml.C50_partial",
    "Oxml.C50_violated"
   ],
   "note": "Refuted as stated (C50_violated). C50_partial: the same histories as C44_partial."
  },
  {
   "property": "C51",
   "status": "partial",
   "theorems": [
    "Oxml.C51_length",
    "Oxml.C51_push",
    "Oxml.C51_clashFree",
    "Oxml.C51_violated",
    "Oxml.C51_partial"
   ],
   "note": "Refuted as stated (C51_violated: table ids are cut to 16 bits). C51_partial: below 65536 entries and without hash collisions, for all later histories."
  },
  {
   "property": "C52",
   "status": "partial",
   "theorems": [
    "Oxml.C52_violated",
    "Oxml.C52_violated_always",
    "Oxml.C52_partial"
   ],
   "note": "Refuted as stated, for every hash (C52_violated_always: custom number formats). C52_partial: all other settings, and custom ones from the second request on, for every hash."
  },
  {
   "property": "C53",
   "status": "partial",
   "theorems": [
    "Oxml.C53_partial",
    "Oxml.C53_length",
    "Oxml.C53_font",
    "Oxml.C53_find_one",
    "Oxml.C53_find_new",
    "Oxml.C53_flag",
    "Oxml.C53_requested",
    "Oxml.C53_first",
    "Oxml.C53_second",
    "Oxml.C53_inject",
    "Oxml.C53_final",
    "Oxml.C53_violated"
   ],
   "note": "Refuted as stated (C53_violated: 65537 fonts). C53_partial: below 65536 entries and without hash collisions."
  },
  {
   "property": "C54",
   "status": "partial",
   "theorems": [
    "Oxml.C54_violated_builtin",
    "Oxml.C54_violated_custom",
    "Oxml.C54_violated",
    "Oxml.C54_partial"
   ],
   "note": "Refuted as stated (C54_violated_builtin: no built-in format is ever applied; C54_violated_custom: no custom format in any history of a new workbook). C54_partial: General."
  },
  {
   "property": "C55",
   "status": "partial",
   "theorems": [
    "Oxml.C55_saveable",
    "Oxml.C55_italic_fit",
    "Oxml.C55_violated",
    "Oxml.C55_partial",
    "Oxml.C55_partial_same",
    "Oxml.C55_partial_look"
   ],
   "note": "Refuted as stated (C55_violated: italics are lost). C55_partial gives the exact tables after save and load, C55_partial_same exactly which tables come back unchanged, C55_partial_look the visual settings that survive."
  },
  {
   "property": "C56",
   "status": "proved",
   "theorems": [
    "Oxml.C56_enumerations",
    "Oxml.C56_distinct"
   ],
   "note": ""
  },
  {
   "property": "C57",
   "status": "partial",
   "theorems": [
    "Oxml.C57_violated",
    "Oxml.C57_violated_prefix",
    "Oxml.C57_partial",
    "Oxml.C57_session"
   ],
   "note": "Refuted as stated (C57_violated: properties without time elements get none; C57_violated_prefix: other namespace prefixes). C57_partial: the exact saved document for every core properties document; C57_session: every history of a new workbook."
  },
  {
   "property": "C58",
   "status": "partial",
   "theorems": [
    "Oxml.C58_violated",
    "Oxml.C58_violated_rename",
    "Oxml.C58_partial",
    "Oxml.C58_handle",
    "Oxml.C58_null",
    "Oxml.C58_history",
    "Oxml.C58_save",
    "Oxml.C58_save_history",
    "Oxml.C58_violated_save",
    "Oxml.C58_create"
   ],
   "note": "Refuted as stated (C58_violated, C58_violated_rename: renaming always reports success; C58_violated_save: saving Word and PowerPoint files). C58_partial: all other calls on workbooks; C58_create, C58_save, C58_handle, C58_null; C58_history: C programs do what histories of the crate do."
  },
  {
   "property": "C59",
   "status": "partial",
   "theorems": [
    "Oxml.C59_violated_crash",
    "Oxml.C59_violated",
    "Oxml.C59_partial",
    "Oxml.C59_load_partial"
   ],
   "note": "Refuted as stated: loading panics without r or i (C59_violated_crash), the l flag is dropped (C59_violated). C59_partial and C59_load_partial give the exact results."
  },
  {
   "property": "C60",
   "status": "partial",
   "theorems": [
    "Oxml.C60_parts_kept",
    "Oxml.C60_violated",
    "Oxml.C60_relationships_partial",
    "Oxml.C60_core_partial",
    "Oxml.C60_save_succeeds",
    "Oxml.C60_reopens",
    "Oxml.C60_new"
   ],
   "note": "Refuted as stated (C60_violated: special characters in root relationships). C60_parts_kept: every part, every package; C60_relationships_partial, C60_core_partial, C60_save_succeeds, C60_reopens, C60_new: packages with plain root relationships."
  },
  {
   "property": "C61",
   "status": "partial",
   "theorems": [
    "Oxml.C61_violated",
    "Oxml.C61_violated_release",
    "Oxml.C61_partial"
   ],
   "note": "Refuted as stated (C61_violated: the limit is 65535; C61_violated_release: release builds wrap and store column 0). C61_partial: exact boundary in checked builds."
  },
  {
   "property": "C62",
   "status": "partial",
   "theorems": [
    "Oxml.C62_violated_always",
    "Oxml.C62_violated"
   ],
   "note": "Refuted for every setting and history (C62_violated_always): users cannot set the pattern, which stays none."
  },
  {
   "property": "C63",
   "status": "partial",
   "theorems": [
    "Oxml.C63_violated",
    "Oxml.C63_partial"
   ],
   "note": "Refuted as stated (C63_violated: strike). C63_partial: exactly which fonts load."
  },
  {
   "property": "C64",
   "status": "proved",
   "theorems": [
    "Oxml.C64_order"
   ],
   "note": ""
  },
  {
   "property": "C65",
   "status": "proved",
   "theorems": [
    "Oxml.C65_saves"
   ],
   "note": "Every history of a new workbook, failed calls and open handles included; a panic ends a history (C61)."
  },
  {
   "property": "C66",
   "status": "partial",
   "theorems": [
    "Oxml.C66_violated"
   ],
   "note": "Refuted for every new document (C66_violated): no main document part is ever created."
  },
  {
   "property": "C67",
   "status": "partial",
   "theorems": [
    "Oxml.C67_violated",
    "Oxml.C67_violated_lost",
    "Oxml.C67_partial",
    "Oxml.C67_violated_size"
   ],
   "note": "Refuted as stated (C67_violated: bold is passed on as italic and underlined too; C67_violated_lost: what is never passed on; C67_violated_size). C67_partial: exactly which styles are passed on."
  },
  {
   "property": "C68",
   "status": "partial",
   "theorems": [
    "Oxml.C68_partial",
    "Oxml.C68_refused",
    "Oxml.C68_violated",
    "Oxml.C68_truncated",
    "Oxml.C68_violated_outside"
   ],
   "note": "Refuted as stated (C68_violated, C68_violated_outside, C68_truncated: truncated parts, junk after the root and empty texts are accepted). C68_partial and C68_refused: end tags are always matched."
  },
  {
   "property": "C69",
   "status": "partial",
   "theorems": [
    "Oxml.C69_grammar",
    "Oxml.C69_reads",
    "Oxml.C69_partial",
    "Oxml.C69_violated",
    "Oxml.C69_namespaces",
    "Oxml.C69_violated_namespaces",
    "Oxml.C69_white",
    "Oxml.C69_trim",
    "Oxml.C69_references",
    "Oxml.C69_references_unique"
   ],
   "note": "Refuted as stated (C69_violated: CDATA, split texts, surrounding white space, entities in attributes; C69_violated_namespaces). C69_reads: the exact tree for every well-formed document with an end tag of its root; C69_partial: documents without those constructs are read as they stand; C69_namespaces. C69_grammar: the same for the independent grammar of XML that C102 is stated with: every well-formed document without CDATA sections and with something in its root is read, element by element as it stands."
  },
  {
   "property": "C70",
   "status": "partial",
   "theorems": [
    "Oxml.C70_violated",
    "Oxml.C70_partial",
    "Oxml.C70_violated_external",
    "Oxml.C70_violated_rels"
   ],
   "note": "Refuted as stated: dot segments are kept (C70_violated, ../drawings/drawing1.xml), external targets become part paths (C70_violated_external), a directory name containing _rels misleads it (C70_violated_rels). C70_partial: all targets without dot segments, from every directory without _rels in its path."
  },
  {
   "property": "C71",
   "status": "proved",
   "theorems": [
    "Oxml.C71_edit_local",
    "Oxml.C71_append",
    "Oxml.C71_refused",
    "Oxml.C71_pop",
    "Oxml.C71_add_tree",
    "Oxml.C71_model_pop",
    "Oxml.C71_model_append",
    "Oxml.C71_model_attrs",
    "Oxml.C71_model_template",
    "Oxml.C71_model_after"
   ],
   "note": "Arena edits refine tree edits at every path; C71_model_* show that the tree operations used by the part models (pop, append, attributes, template, insert after) are what the arena calls do. pop_element_mut is covered for elements already detached only."
  },
  {
   "property": "C72",
   "status": "proved",
   "theorems": [
    "Oxml.C72_counts",
    "Oxml.C72_entries"
   ],
   "note": "C72_counts and C72_entries: any loaded part, any requests."
  },
  {
   "property": "C73",
   "status": "proved",
   "theorems": [
    "Oxml.C73_loaded",
    "Oxml.C73_new",
    "Oxml.C73_id"
   ],
   "note": "C73_new: every history of a new workbook; C73_loaded: loaded tables that were consistent; C73_id: ids handed out. Number format ids are not covered here, see C54."
  },
  {
   "property": "C74",
   "status": "partial",
   "theorems": [
    "Oxml.C74_violated_always",
    "Oxml.C74_violated",
    "Oxml.C74_partial"
   ],
   "note": "Refuted for every C program that opens a sheet (C74_violated_always): no call closes a handle, so each part opened is saved unreadable. C74_partial: the default sheet stays readable."
  },
  {
   "property": "C75",
   "status": "partial",
   "theorems": [
    "Oxml.C75_partial",
    "Oxml.C75_violated_always",
    "Oxml.C75_violated"
   ],
   "note": "Refuted as stated (C75_violated: saving twice; C75_violated_always: any use after saving). C75_partial: programs that use nothing after saving."
  },
  {
   "property": "C76",
   "status": "partial",
   "theorems": [
    "Oxml.C76_violated",
    "Oxml.C76_violated_rename",
    "Oxml.C76_partial",
    "Oxml.C76_save",
    "Oxml.C76_violated_save",
    "Oxml.C76_names"
   ],
   "note": "Refuted as stated (C76_violated, C76_violated_rename: RenameSheet always returns true; C76_violated_save: Word and PowerPoint). C76_partial: AddSheet and GetWorksheet with results and exceptions; C76_save; C76_names."
  },
  {
   "property": "C77",
   "status": "proved",
   "theorems": [
    "Oxml.C77_order",
    "Oxml.C77_open"
   ],
   "note": "For every workbook loaded and every sheet list and view. C77_open: loading provides the hypothesis."
  },
  {
   "property": "C78",
   "status": "proved",
   "theorems": [
    "Oxml.C78_strings_load_content",
    "Oxml.C78_calc_load_content",
    "Oxml.C78_rels_load_content",
    "Oxml.C78_extensions_load_content",
    "Oxml.C78_book_load_content",
    "Oxml.C78_sheet_load_content",
    "Oxml.C78_styles_load_content",
    "Oxml.C78_strings_save_content",
    "Oxml.C78_calc_save_content",
    "Oxml.C78_book_save_content",
    "Oxml.C78_sheet_save_content",
    "Oxml.C78_styles_save_content",
    "Oxml.C78_core_save_content",
    "Oxml.C78_rels_save_content",
    "Oxml.C78_load_tree",
    "Oxml.C78_left_tree",
    "Oxml.C78_save_tree",
    "Oxml.C78_content_types",
    "Oxml.C78_sheet_atomic"
   ],
   "note": "Arena programs of all parts (Model/PartArena) refine the tree-level models, for every reachable document. C78_load_tree, C78_left_tree and C78_save_tree are the refinement; C78_*_content the independence of history. The style part left after a failed load is not compared. C78_sheet_atomic: a failing sheet write fails before it touches the document."
  },
  {
   "property": "C79",
   "status": "partial",
   "theorems": [
    "Oxml.C79_c",
    "Oxml.C79_partial",
    "Oxml.C79_save",
    "Oxml.C79_create",
    "Oxml.C79_violated"
   ],
   "note": "Holds for the C interface (C79_c, every call whose request fails) and for adding, opening, saving and the constructors in .NET, when the text has no zero character. Violated by RenameSheet (C79_violated)."
  },
  {
   "property": "C80",
   "status": "proved",
   "theorems": [
    "Oxml.C80_no_conflict",
    "Oxml.C80_between"
   ],
   "note": "Every function reduced to its RefCell guards with all control flow left open; a check of guard nesting proved sound, then evaluated on each call."
  },
  {
   "property": "C81",
   "status": "proved",
   "theorems": [
    "Oxml.C81_kept",
    "Oxml.C81_unrelated",
    "Oxml.C81_nothing_lost"
   ],
   "note": "All files and histories; failed calls allowed except for the last sentence (a failed open loses its part, C20)."
  },
  {
   "property": "C82",
   "status": "partial",
   "theorems": [
    "Oxml.C82_sheets_partial",
    "Oxml.C82_untouched_partial",
    "Oxml.C82_strings_partial",
    "Oxml.C82_chain_partial",
    "Oxml.C82_styles_partial",
    "Oxml.C82_violated",
    "Oxml.C82_violated_chain"
   ],
   "note": "Violated: sheets are numbered anew from 1, a very hidden sheet becomes visible, and calculation chain entries then name no sheet (C82_violated, C82_violated_chain). Proved for all histories on files whose own parts have no text directly in the root: names, order, relationships, hidden flags, strings (trimmed), chain and styles reach the saved file."
  },
  {
   "property": "C83",
   "status": "partial",
   "theorems": [
    "Oxml.C83_partial",
    "Oxml.C83_violated",
    "Oxml.C83_violated_always",
    "Oxml.C83_exact"
   ],
   "note": "Violated: a file without strings or formulas cannot be opened again after saving (C83_violated), since the emptied parts are written self-closed. This holds for every file without a calculation chain part, after any history (C83_violated_always); when both parts are the usual ones, the saved file opens again exactly if there are strings and a chain (C83_exact). Proved for all histories when both are non-empty, relationships need no escaping and theme and core properties are not empty."
  },
  {
   "property": "C84",
   "status": "partial",
   "theorems": [
    "Oxml.C84_texts_partial",
    "Oxml.C84_formats",
    "Oxml.C84_violated",
    "Oxml.C84_exact",
    "Oxml.C84_violated_always",
    "Oxml.C84_violated_shift"
   ],
   "note": "Violated: rich text strings become empty by opening and saving (C84_violated), for every such file and history (C84_violated_always), and behind an empty item all texts shift by one (C84_violated_shift); C84_exact says which texts remain. Formats: proved for all files and histories with font sizes of a byte. Texts: proved when every item is a plain text, up to white space around it."
  },
  {
   "property": "C85",
   "status": "partial",
   "theorems": [
    "Oxml.C85_columns_partial",
    "Oxml.C85_violated",
    "Oxml.C85_partial"
   ],
   "note": "Proved for all histories on sheets whose root has no text and whose cell references begin with a column name, up to the effect of one save and load on values (C32-C35). For columns that are not set it is false (C85_violated: making one column visible shows all columns to its right in the range); C85_columns_partial says exactly what every column shows after any edits."
  },
  {
   "property": "C86",
   "status": "partial",
   "theorems": [
    "Oxml.C86_partial",
    "Oxml.C86_violated",
    "Oxml.C86_violated_always"
   ],
   "note": "Violated for every sheet without a relationship part, in every file and history (C86_violated_always; instance C86_violated): the emptied relationship part is saved unreadable. Proved for sheets with relationships in tidy workbooks with strings and a chain (as C83), cells and rows up to the effect of one save and load."
  },
  {
   "property": "C87",
   "status": "partial",
   "theorems": [
    "Oxml.C87_partial",
    "Oxml.C87_violated",
    "Oxml.C87_violated_relationship"
   ],
   "note": "Violated: the part of a deleted sheet is in every saved file (C87_violated) and its relationship too when its target is relative (C87_violated_relationship). C87_partial: the list, relationships with absolute targets and all other parts, for every tidy file and history."
  },
  {
   "property": "C88",
   "status": "partial",
   "theorems": [
    "Oxml.C88_exact",
    "Oxml.C88_saves",
    "Oxml.C88_violated"
   ],
   "note": "Violated: a workbook whose styles part is a zero-byte entry opens but cannot be saved whatever is done to it (C88_violated). C88_exact gives the necessary and sufficient condition for every file and history; C88_saves: it holds whenever the own parts present in the file have root elements."
  },
  {
   "property": "C89",
   "status": "partial",
   "theorems": [
    "Oxml.C89_partial",
    "Oxml.C89_violated_always",
    "Oxml.C89_violated"
   ],
   "note": "Violated for every file and history: no saved formula is shared, an array or of another special kind, and no cell a date (C89_violated_always); C89_violated has a sheet where opening and closing changes three cells. C89_partial: exact on the XML for plain cells (the six other types, decimal numbers, simple content), all histories."
  },
  {
   "property": "C90",
   "status": "partial",
   "theorems": [
    "Oxml.C90_partial_rows",
    "Oxml.C90_partial_columns",
    "Oxml.C90_violated_columns",
    "Oxml.C90_violated"
   ],
   "note": "Violated: a row with hidden=\"true\" becomes visible (C90_violated); no column keeps its outline, for every file and history (C90_violated_columns). Proved exactly for rows and columns whose flags are not written \"true\" and whose numbers print as they are read, outline of columns excepted."
  },
  {
   "property": "C91",
   "status": "partial",
   "theorems": [
    "Oxml.C91_partial",
    "Oxml.C91_violated_always",
    "Oxml.C91_violated"
   ],
   "note": "Violated for every file and history: no view keeps its panes or selections (C91_violated_always, C91_violated). C91_partial: settings of views are kept, in reverse order and with an extra view."
  },
  {
   "property": "C92",
   "status": "partial",
   "theorems": [
    "Oxml.C92_violated_always",
    "Oxml.C92_violated_unnumbered",
    "Oxml.C92_partial",
    "Oxml.C92_violated"
   ],
   "note": "Violated for every file and history: after a failed call the saved sheet has neither rows nor columns (C92_violated_always, for sheets without relationship part and with sound columns), and every sheet with a row or cell without reference is refused (C92_violated_unnumbered); C92_violated is an instance. C92_partial: unmanaged elements survive, whatever the reason of the failure."
  },
  {
   "property": "C93",
   "status": "partial",
   "theorems": [
    "Oxml.C93_reads",
    "Oxml.C93_open",
    "Oxml.C93_open_document",
    "Oxml.C93_calls",
    "Oxml.C93_history",
    "Oxml.C93_new",
    "Oxml.C93_save",
    "Oxml.C93_core",
    "Oxml.C93_save_document",
    "Oxml.C93_violated_open",
    "Oxml.C93_violated_call",
    "Oxml.C93_violated_save",
    "Oxml.C93_violated"
   ],
   "note": "False as stated, in every build: six kinds of files crash on open (C93_violated_open), asking for a sheet (C93_violated_call) or saving (C93_violated_save). Complete list of causes: C93_open, C93_calls; C93_save is exact. C93_history, C93_new: in release builds nothing else crashes, whatever the history. XML reading never crashes (C93_reads). Checked builds: calls crash only on overflow outside the columns, see CallTrouble."
  },
  {
   "property": "C94",
   "status": "partial",
   "theorems": [
    "Oxml.C94_open",
    "Oxml.C94_new",
    "Oxml.C94_runs",
    "Oxml.C94_model_run",
    "Oxml.C94_save",
    "Oxml.C94_text",
    "Oxml.C94_reopen",
    "Oxml.C94_file_to_file",
    "Oxml.C94_set_attribute",
    "Oxml.C94_violated_attributes",
    "Oxml.C94_violated"
   ],
   "note": "C94_file_to_file: same answers, same sheets, views and styles, same saved file, for all programs and all orders between calls (C94_open, C94_runs, C94_save, C94_text). C94_reopen: the saved files open alike if each extension has one content type. False otherwise: C94_violated (order decides which type survives), C94_violated_attributes (attributes named xmlns... fight for one namespace; C94_set_attribute without such a clash). Missing: orders inside one call, except where a call is made of several of these steps; reading attributes with clashing declarations."
  },
  {
   "property": "C95",
   "status": "partial",
   "theorems": [
    "Oxml.C95_partial_new",
    "Oxml.C95_partial_plain",
    "Oxml.C95_violated_always",
    "Oxml.C95_violated",
    "Oxml.C95_partial_existing"
   ],
   "note": "C95_partial_new, C95_partial_existing: for every history the cell (and, in existing sheets, the row) refers to a format that looks as the setting after its documented losses (keptLook); C95_partial_plain: nothing is lost of settings that are neither italic nor underlined and have no special characters or coloured absent borders. False as stated: C95_violated, and C95_violated_always for every italic or underlined setting. Missing: full tables and hash collisions (C51), number formats (C54), styles of columns."
  },
  {
   "property": "C96",
   "status": "proved",
   "theorems": [
    "Oxml.C96_opened",
    "Oxml.C96_new",
    "Oxml.C96_file",
    "Oxml.C96_new_file",
    "Oxml.C96_calls"
   ],
   "note": "C96_opened, C96_new: after any history, dropping the same handles in any order leaves every open part, every closed part (to the letter), the handles and tables the same. C96_calls: a drop may be exchanged with any write to another sheet, style request, rename, hide, activate or view change. C96_file, C96_new_file: all later programs get the same answers and save the same file (up to the order of namespaces and parts, as in C94)."
  },
  {
   "property": "C97",
   "status": "partial",
   "theorems": [
    "Oxml.C97_partial",
    "Oxml.C97_alternates_partial",
    "Oxml.C97_tabs",
    "Oxml.C97_violated"
   ],
   "note": "C97_partial: by induction on the number of times, relationships, theme, strings, chain and styles read the same, other parts are the same to the letter, core properties differ in the time of the last change only, the workbook part differs by the flag for sheet tabs turned around each time. C97_alternates_partial: it is back every second time. C97_tabs, C97_violated: the flag makes the property false for every workbook with a view. Needed: string table and chain not empty (otherwise the file does not open again, C83), no special characters in attributes (escaped once more each time, C09), no text with white space around it, no italic or underlined fonts (not read back, C55), creation time present. Missing: the content types part."
  },
  {
   "property": "C98",
   "status": "proved",
   "theorems": [
    "Oxml.C98_distinct",
    "Oxml.C98_found",
    "Oxml.C98_refused",
    "Oxml.C98_data"
   ],
   "note": "For every history on new and opened workbooks, failed calls included: all parts in use differ (C98_distinct), every handle finds its documents (C98_found), asking for an open sheet is refused and changes nothing at all (C98_refused), a call changes no open sheet but its own and hands out none that is open (C98_data)."
  },
  {
   "property": "C99",
   "status": "partial",
   "theorems": [
    "Oxml.C99_exact",
    "Oxml.C99_own",
    "Oxml.C99_shared",
    "Oxml.C99_partial",
    "Oxml.C99_violated",
    "Oxml.C99_violated_dangling",
    "Oxml.C99_exact_opened",
    "Oxml.C99_violated_opened",
    "Oxml.C99_violated_adopts"
   ],
   "note": "C99_exact: in every history adding succeeds exactly when the first free part is not open; C99_partial: always if no sheet was deleted. C99_own: then the sheet is last, empty and its part new; a sheet listed before leads there exactly if it led nowhere and has the same id. False as stated: C99_violated (after one deletion; C99_shared: whenever it fails the name is listed all the same and leads to the open part, so two names show one sheet) and C99_violated_dangling (a sheet renamed and deleted takes over the part of the next new one). Opened workbooks: C99_exact_opened gives the exact condition (part and its relationship part not open, the latter absent or readable) and the result; C99_violated_opened and C99_violated_adopts: relationships another program left behind make adding fail or are taken over by the new sheet."
  },
  {
   "property": "C100",
   "status": "partial",
   "theorems": [
    "Oxml.C100_violated_always",
    "Oxml.C100_violated_rename",
    "Oxml.C100_violated",
    "Oxml.C100_violated_case",
    "Oxml.C100_partial"
   ],
   "note": "Violated for every name: any text not listed is accepted and gets into the file, when adding (C100_violated_always, histories without deletions) and when renaming (C100_violated_rename, all histories); C100_violated, C100_violated_case are instances. C100_partial: no name is listed that was not asked for, but default ones, in every history."
  },
  {
   "property": "C101",
   "status": "partial",
   "theorems": [
    "Oxml.C101_partial",
    "Oxml.C101_violated_always"
   ],
   "note": "Violated for every cell: any row up to 4294967295, row 0 included, and any column up to 65535 can be written and is in the saved sheet (C101_violated_always). C101_partial: if all calls write in the grid, the saved sheet has no cell outside, for every sheet that was dropped before saving."
  },
  {
   "property": "C102",
   "status": "partial",
   "theorems": [
    "Oxml.C102_one_reading",
    "Oxml.C102_written_wellformed",
    "Oxml.C102_violated_always",
    "Oxml.C102_exact",
    "Oxml.C102_violated"
   ],
   "note": "C102_exact: with names and namespaces XML can hold, the text written is well-formed, by the grammar of XML 1.0 (Spec/WellFormed), exactly when all characters of all texts and attribute values are ones XML allows; C102_written_wellformed: what every standard reader finds is then the tree of the document (C102_one_reading: the grammar is unambiguous, a text is a document in one way only). Violated for every text with another character (C102_violated_always, C102_violated: U+0001): nothing refuses or replaces it. Names the library accepts by is_alphabetic are assumed to be XML names; namespaces are written as they are, so they must not contain markup."
  },
  {
   "property": "C103",
   "status": "partial",
   "theorems": [
    "Oxml.C103_exact",
    "Oxml.C103_violated",
    "Oxml.C103_violated_attribute"
   ],
   "note": "C103_exact: every standard reader finds all texts and attribute values as they were exactly when no text has a carriage return and no attribute value or namespace a carriage return, line feed or tab (for documents C102 makes well-formed, no element with both text and children). False as stated: C103_violated (carriage return in a text), C103_violated_attribute (line feed in an attribute)."
  },
  {
   "property": "C104",
   "status": "partial",
   "theorems": [
    "Oxml.C104_file_wellformed",
    "Oxml.C104_cell_spoils",
    "Oxml.C104_name_spoils",
    "Oxml.C104_violated"
   ],
   "note": "C104_file_wellformed: for every history from a new workbook all of whose texts have only characters XML allows, the file is written and each of its parts is well-formed by the grammar of XML 1.0 (theme and time as given, release stamp a comment). False as stated: C104_cell_spoils (one bad text once given to a cell: the shared strings of every later file are not well-formed, whatever is done afterwards), C104_name_spoils (as long as a bad sheet name is listed); C104_violated is an instance. Missing: opened workbooks."
  },
  {
   "property": "C105",
   "status": "partial",
   "theorems": [
    "Oxml.C105_partial",
    "Oxml.C105_violated_words",
    "Oxml.C105_violated_open"
   ],
   "note": "C105_partial: for every history from a new workbook with XML characters only, a sheet whose handle was dropped before saving, and every row and column, every standard reader finds no cell where nothing was written and else exactly one, with row, style, formula and the value last written (Spec/Elsewhere states cells and values by the file format, without the library). White space around formulas and direct texts is kept unless a listed sheet is opened in between. False as stated: C105_violated_open (handle still open: no cell is found, always), C105_violated_words (nan, inf, infinity without a type become numbers no other program can read, always). Formulas of inline strings are not written, so the spec asks for none. Missing: opened workbooks."
  },
  {
   "property": "C106",
   "status": "partial",
   "theorems": [
    "Oxml.C106_listed",
    "Oxml.C106_sheets_partial",
    "Oxml.C106_partial",
    "Oxml.C106_violated_names",
    "Oxml.C106_violated"
   ],
   "note": "C106_listed: after any history from a new workbook with XML characters only, other programs can open the file (root relationships, content types, workbook, its relationships, namespaces) and the list of sheets they see is the library's, in order, hidden ones marked, names as XML reads attributes. C106_sheets_partial: after careful histories (names stay distinct, additions succeed, no sheet with an open handle renamed) without tabs and line breaks in names they find a worksheet under exactly the listed names. C106_partial: the sheet written through a handle is found under the name it has in the end (finalName follows renames and deletes), and in it, with the shared strings found, the cells as in C105. False as stated: C106_violated (rename, then delete through the handle: the entry stays and leads nowhere), C106_violated_names (names with tabs or line breaks are never found, always). Missing: other histories, opened workbooks."
  },
  {
   "property": "C107",
   "status": "partial",
   "theorems": [
    "Oxml.C107_rows_partial",
    "Oxml.C107_styles_partial",
    "Oxml.C107_violated",
    "Oxml.C107_partial"
   ],
   "note": "C107_styles_partial: for every history from a new workbook with XML characters only, other programs find exactly one styles part, and the id handed out for a setting leads there, by position in cellXfs, fonts, fills and borders, to exactly the font (name, size, colour, bold, italic, underlines, no theme font, no other effects), fill, five sides and alignment asked for, each marked as applied or the default entry; general number format if asked for. Texts as XML reads attributes. C107_partial: in careful histories a cell given the id by its last write is found under the name of its sheet with that look; C107_rows_partial: the same for a row given the id by its last setting. C107_violated: every other standard number format (percentages, dates, decimals) is found as General, always. Missing: tables with 65536 entries and hash collisions (the hypotheses of C51 to C53), custom number formats (C54), columns given styles (lost, C108), cells of opened workbooks, sheets whose handle is open while saving."
  },
  {
   "property": "C108",
   "status": "partial",
   "theorems": [
    "Oxml.C108_partial",
    "Oxml.C108_violated",
    "Oxml.C108_violated_columns"
   ],
   "note": "C108_partial: for every careful history from a new workbook with XML characters only and a sheet whose handle was dropped before saving, in the sheet other programs find under its name there is no row that was not written to or set, and exactly one for every row that was, with the height, style, outline level and switches last given to it, provided no switch was given as false (Spec/SeenRows states rows by the file format, without the library; the spans attribute, a hint only, is left out). False as stated: C108_violated (every switch given as Some(false) is found on: a row set to be shown is hidden, always), C108_violated_columns (in sheets of new workbooks no column settings are found at all, always). Missing: opened workbooks, sheets whose handle is open while saving."
  },
  {
   "property": "C109",
   "status": "partial",
   "theorems": [
    "Oxml.C109_partial",
    "Oxml.C109_partial_saved",
    "Oxml.C109_violated_cdata",
    "Oxml.C109_violated_runs"
   ],
   "note": "C109_partial: for every text the XML grammar (Spec/WellFormed, written from the recommendation) derives for a worksheet, the library reads it, and if the sheet loads, a cell is held at a place exactly when another program sees one there, with the same style, type, formula and value. C109_partial_saved: after any session with edits through its handle, of every cell not written the saved sheet says what was seen in the file opened, and has no others. Missing: CDATA sections, references in attribute values, values of several lines or with white space around them, strings in runs, shared formulas, dates. False as stated: C109_violated_cdata (a value in a CDATA section is lost), C109_violated_runs (an inline string in runs is lost)."
  },
  {
   "property": "C110",
   "status": "partial",
   "theorems": [
    "Oxml.C110_partial",
    "Oxml.C110_violated_runs",
    "Oxml.C110_violated_empty",
    "Oxml.C110_violated_space"
   ],
   "note": "C110_partial: for every workbook file that opens and every text the XML grammar derives for its strings part, the table holds for each string another program sees, in order, what is left of it without white space around it, and exactly that string if it is on one line without white space around it. Missing: CDATA sections, strings in runs, string items with nothing in them, white space around strings. False as stated: C110_violated_runs (a string in runs becomes an empty string), C110_violated_empty (an item with nothing in it is skipped and every later number leads to another string), C110_violated_space (white space around a string is lost)."
  },
  {
   "property": "C111",
   "status": "partial",
   "theorems": [
    "Oxml.C111_partial",
    "Oxml.C111_partial_values"
   ],
   "note": "C111_partial: text to text. For every sheet text the XML grammar derives (in the common form of C109), after every session with edits through its handle, whoever reads the saved text by the grammar finds at every place not written exactly the one cell that was there (row, style, type, formula, text), or none, and at every place written exactly one cell with what was given. C111_partial_values adds the strings part on both sides: the values are the same. Missing: what C109 and C110 say, names outside ASCII, namespaces with markup in them, words that are numbers for the library only, cells damaged before."
  },
  {
   "property": "C112",
   "status": "partial",
   "theorems": [
    "Oxml.C112_partial"
   ],
   "note": "C112_partial: for every sheet and strings part another program wrote (well formed by the XML grammar, any content), every session with edits through the handle of the sheet and texts of XML characters, both parts of the saved file are well formed by the same grammar. With C111 it follows that the cells described there are really found. Missing: CDATA sections, empty root elements, names outside ASCII, namespaces with markup in them, the other parts of the file."
  },
  {
   "property": "C113",
   "status": "partial",
   "theorems": [
    "Oxml.C113_partial"
   ],
   "note": "C113_partial: for every workbook file whose own parts, those it has, are well formed by the XML grammar with any content, every session whatever fails, texts of XML characters: all eight own parts are in the saved file and well formed by the same grammar. Missing: CDATA sections, empty root elements, names outside ASCII, namespaces with markup in them, the remaining parts of the file (the sheets: C112)."
  },
  {
   "property": "C114",
   "status": "partial",
   "theorems": [
    "Oxml.C114_partial"
   ],
   "note": "C114_partial: for every workbook file whose parts, those the library can read, are well formed by the XML grammar with any content (parts it cannot read hold anything), every session whatever fails, texts of XML characters: every part of the saved file but the list of content types has the text it had or is well formed by the same grammar. Missing: the list of content types, CDATA sections, empty root elements, names outside ASCII, namespaces with markup in them."
  },
  {
   "property": "C115",
   "status": "partial",
   "theorems": [
    "Oxml.C115_partial"
   ],
   "note": "C115_partial: for every workbook file whose parts, those the library can read, are well formed by the XML grammar with any content and whose part names are of XML characters, every session whatever fails, texts of XML characters, every order of the set of extensions: the saved file has a list of content types, well formed by the same grammar, and every part has the text it had or is well formed. Missing: CDATA sections, empty root elements, names outside ASCII, namespaces with markup in them."
  }
 ]
}
