{"id": "C01", "title": "Column number to letters and back is the identity", "statement": "Converting any column number from 1 to 65535 to its letter name and converting that name back returns the same number, and neither conversion fails or overflows.", "quantifier": "all column numbers 1..65535", "why_tests_cant": "65535 inputs times a 16-bit overflow question in every intermediate product; examples only sample it.", "anchors": ["rs/src/utils/converters.rs::get_column_ref", "rs/src/utils/converters.rs::get_column_index"]}
{"id": "C02", "title": "Column letters to number and back; exact failure boundary", "statement": "For every non-empty string of ASCII letters, in an overflow-checked build the conversion to a number succeeds exactly when the base-26 value of the letters is at most 65535 and converting the number back yields the upper-cased string; in a release build the result is the value modulo 65536. Case does not matter.", "quantifier": "all strings of ASCII letters of any length", "why_tests_cant": "The set of letter strings is infinite and the failure boundary is an overflow condition in a loop.", "anchors": ["rs/src/utils/converters.rs::get_column_index", "rs/src/utils/converters.rs::get_column_ref"]}
{"id": "C03", "title": "Column names are ordered like column numbers", "statement": "Two column names compare (shorter first, then alphabetically) exactly as their numbers compare, every produced name is non-empty and uses only A-Z, and only column 0 is rejected.", "quantifier": "all pairs of column numbers", "why_tests_cant": "A relation between all pairs of inputs.", "anchors": ["rs/src/utils/converters.rs::get_column_ref"]}
{"id": "C04", "title": "Cell reference text and (row, column) agree", "statement": "For every column 1..65535 and every row 0..4294967295, parsing the reference made of the column letters followed by the decimal row returns exactly that row and column.", "quantifier": "all rows of 32 bits and all columns of 16 bits", "why_tests_cant": "2^48 inputs.", "anchors": ["rs/src/utils/converters.rs::get_cell_index", "rs/src/spreadsheet/spreadsheet_2007/parts/worksheet.rs::serialize_sheet_data", "rs/src/spreadsheet/spreadsheet_2007/parts/worksheet.rs::set_row_value_ref_mut"]}
{"id": "C05", "title": "Malformed cell references are rejected", "statement": "A reference string that is not letters followed by digits is rejected with an error instead of being read as some cell.", "quantifier": "all strings", "why_tests_cant": "Rejection must hold for every malformed string.", "anchors": ["rs/src/utils/converters.rs::get_cell_index", "rs/src/utils/converters.rs::extract_digits"]}
{"id": "C06", "title": "Escaping is lossless and markup-safe", "statement": "For every text, the escaped text contains no raw <, >, double quote or apostrophe, every & in it starts one of the five entities, and unescaping it gives back the text.", "quantifier": "all strings", "why_tests_cant": "Infinite input space.", "anchors": ["rs/src/files/xml/xml_deserialize.rs::generate_xml_value_close", "rs/src/files/xml/xml_deserialize.rs::generate_xml_element", "rs/src/files/xml/xml_serialize.rs::xml_element_parser"]}
{"id": "C07", "title": "Writing a tree never fails and emits document order", "statement": "For every document built with the tree API, writing it succeeds (the loop-safety counter and the missing-element errors never fire) and the output is the document-order rendering of the tree.", "quantifier": "all trees of any shape and size built through the API", "why_tests_cant": "Termination bound 2n of an iterative walk over a mutable arena; needs induction over trees.", "anchors": ["rs/src/files/xml/xml_deserialize.rs::build_xml_tree", "rs/src/files/xml/xml_tree.rs::pop_child_mut"]}
{"id": "C08", "title": "Write then read gives the document back", "statement": "For every document with a non-self-closing root, whose texts have no surrounding white space and whose attribute values contain none of the five special characters, writing and reading it back yields the same tree: tags, order, nesting, attributes, texts, root namespaces.", "quantifier": "all documents in the stated class, any depth", "why_tests_cant": "Infinite set of trees; the reader is a state machine over characters.", "anchors": ["rs/src/files/xml/xml_deserialize.rs::xml_tree_to_vec", "rs/src/files/xml/xml_serialize.rs::vec_to_xml_doc_tree"]}
{"id": "C09", "title": "Attribute values survive a read and write cycle", "statement": "Reading a document and writing it again leaves every attribute value denoting the same text.", "quantifier": "all attribute values", "why_tests_cant": "Must hold for every string, including those with & < > quotes.", "anchors": ["rs/src/files/xml/xml_serialize.rs::get_attributes_string", "rs/src/files/xml/xml_deserialize.rs::generate_xml_element"]}
{"id": "C10", "title": "Element text survives a write and read cycle", "statement": "The text of every element is the same after writing the document and reading it back.", "quantifier": "all texts, including blank, padded and mixed content", "why_tests_cant": "Infinite set of strings and shapes.", "anchors": ["rs/src/files/xml/xml_serialize.rs::xml_element_parser", "rs/src/files/xml/xml_serialize.rs::vec_to_xml_doc_tree"]}
{"id": "C11", "title": "Tree integrity over every edit history", "statement": "After any sequence of tree edits (create root, append, insert before/after/at, pop by tag, set attributes, set value, reorder), element ids are never reused, every listed child exists and names its parent, and the reachable elements form a tree.", "quantifier": "all finite edit histories", "why_tests_cant": "History-quantified invariant.", "anchors": ["rs/src/files/xml/xml_tree.rs::XmlDocument"]}
{"id": "C12", "title": "Saved children are in schema order, nothing lost", "statement": "Ordering the children of an element with an order list gives a permutation in which listed tags appear in list order, unlisted tags come last, and equal tags keep their relative order.", "quantifier": "all child lists and all order lists", "why_tests_cant": "Sorting stability for all inputs.", "anchors": ["rs/src/files/xml/xml_tree.rs::order_child_mut", "rs/src/spreadsheet/spreadsheet_2007/parts/workbook.rs::close_document", "rs/src/spreadsheet/spreadsheet_2007/parts/worksheet.rs::close_document"]}
{"id": "C13", "title": "Only well-formed XML names enter a document", "statement": "For every sequence of edits, every tag and attribute name held by a document is a legal name: legal first character, legal following characters, at most one colon; an illegal name is refused with an error and leaves the document unchanged.", "quantifier": "all edit histories and all strings", "why_tests_cant": "All strings and histories.", "anchors": ["rs/src/files/xml/xml_tree.rs::is_valid_xml_name", "rs/src/files/xml/xml_tree.rs::set_attribute_mut"]}
{"id": "C14", "title": "Namespace declarations survive read and write", "statement": "The prefix bindings and the default namespace in force at every element are unchanged by reading and writing a document.", "quantifier": "all documents", "why_tests_cant": "All placements of declarations.", "anchors": ["rs/src/files/xml/xml_tree.rs::set_attribute_mut", "rs/src/files/xml/xml_deserialize.rs::generate_xml_element"]}
{"id": "C15", "title": "Parts that were not opened are preserved", "statement": "Saving a package after any history of operations writes every part that was never opened, closed or deleted with exactly the content it had when loaded, under the same name, and writes no part twice.", "quantifier": "all packages and all operation histories", "why_tests_cant": "Frame property over histories.", "anchors": ["rs/src/files/office_document.rs::save_as", "rs/src/files/office_document.rs::save_database_into_archive", "rs/src/files/office_document.rs::load_archive_into_database"]}
{"id": "C16", "title": "No part is lost by opening and closing", "statement": "Over any history of opening existing or template parts and closing them, the set of part names in the package (closed or open) only grows, a part is never open twice, closing is idempotent, and opening then closing a part leaves a re-rendering of the same tree.", "quantifier": "all open/close histories", "why_tests_cant": "History-quantified.", "anchors": ["rs/src/files/office_document.rs::get_xml_tree_mut", "rs/src/files/office_document.rs::close_xml_document", "rs/src/global/global_2007/traits/xml_parts.rs::get_xml_document"]}
{"id": "C17", "title": "Content types cover every part and survive reload", "statement": "Every saved package has a [Content_Types].xml in which each part with a content type has exactly one Override with that type and each part extension a Default, and loading the saved package gives every part the same content type.", "quantifier": "all package states", "why_tests_cant": "All sets of parts.", "anchors": ["rs/src/files/office_document.rs::save_database_into_archive", "rs/src/files/office_document.rs::load_archive_into_database", "rs/src/global/global_2007/parts/content_types.rs::create_xml_file", "rs/src/global/global_2007/parts/content_types.rs::get_override_content_type"]}
{"id": "C18", "title": "At most one Default per extension", "statement": "The saved [Content_Types].xml never declares two Default entries for the same extension.", "quantifier": "all package states reachable by load, create, save", "why_tests_cant": "All mixes of loaded and new parts.", "anchors": ["rs/src/files/office_document.rs::save_database_into_archive"]}
{"id": "C19", "title": "Saving to disk is all or nothing", "statement": "If producing the package fails the target file is untouched; if saving succeeds the target holds exactly the new package; a crash at any point leaves the target either old or new.", "quantifier": "all file systems, packages, failures and crash points", "why_tests_cant": "Crash points and failures must be enumerated over every state.", "anchors": ["rs/src/files/office_document.rs::save_as"]}
{"id": "C20", "title": "A failed open does not damage the package", "statement": "If opening a part fails, the package still holds that part unchanged.", "quantifier": "all packages and parts", "why_tests_cant": "Must hold for every failing content.", "anchors": ["rs/src/files/office_document.rs::get_xml_tree_mut"]}
{"id": "C21", "title": "Relationship ids stay unique", "statement": "Starting from a relationship list with distinct ids, any history of adding and deleting relationships keeps ids distinct, and a new id is always of the form rId<n> and unused.", "quantifier": "all histories", "why_tests_cant": "History-quantified; ids are searched by a loop that must terminate.", "anchors": ["rs/src/global/global_2007/parts/relations.rs::get_next_relationship_id", "rs/src/global/global_2007/parts/relations.rs::set_new_relationship_mut", "rs/src/global/global_2007/parts/relations.rs::delete_relationship_mut"]}
{"id": "C22", "title": "A created relationship resolves to the part it was created for", "statement": "The part path returned when a relationship is created is the path that looking up the relationship by id or by type returns afterwards, for every later history that does not delete it.", "quantifier": "all relationship lists, paths and names", "why_tests_cant": "All paths and histories.", "anchors": ["rs/src/global/global_2007/parts/relations.rs::get_relationship_target_by_type_mut", "rs/src/global/global_2007/parts/relations.rs::get_target_by_id"]}
{"id": "C23", "title": "Relationships survive save and load in order", "statement": "Writing the relationship list to its part and loading it again gives the same list of (id, target, type, mode) in the same order.", "quantifier": "all relationship lists", "why_tests_cant": "All lists.", "anchors": ["rs/src/global/global_2007/parts/relations.rs::save_relationship_to_doc", "rs/src/global/global_2007/parts/relations.rs::load_relations"]}
{"id": "C24", "title": "Shared string ids are permanent", "statement": "For any history of string insertions, the id returned for a text denotes that text in the table at every later time, the same text always gets the same id, and different texts get different ids.", "quantifier": "all insertion histories from any starting table", "why_tests_cant": "History-quantified.", "anchors": ["rs/src/spreadsheet/spreadsheet_2007/services/share_string.rs::get_string_id_mut", "rs/src/spreadsheet/spreadsheet_2007/parts/worksheet.rs::update_share_string"]}
{"id": "C25", "title": "The shared string table survives save and load", "statement": "Saving a non-empty table writes count equal to the number of entries and uniqueCount equal to the number of distinct entries, and loading it back yields the same table.", "quantifier": "all tables whose texts have no surrounding white space and are not empty", "why_tests_cant": "All tables.", "anchors": ["rs/src/spreadsheet/spreadsheet_2007/services/share_string.rs::close_document", "rs/src/spreadsheet/spreadsheet_2007/services/share_string.rs::load_content_to_database"]}
{"id": "C26", "title": "Loading a shared string part keeps indices", "statement": "For every shared string part, entry i of the loaded table is the text of the i-th si element.", "quantifier": "all shared string parts", "why_tests_cant": "All part contents.", "anchors": ["rs/src/spreadsheet/spreadsheet_2007/services/share_string.rs::load_content_to_database"]}
{"id": "C27", "title": "A worksheet is a last-write-wins cell map", "statement": "After any sequence of row writes, each cell holds the last value written to it and cells never written keep their loaded content.", "quantifier": "all write histories, rows and columns", "why_tests_cant": "History-quantified refinement.", "anchors": ["rs/src/spreadsheet/spreadsheet_2007/parts/worksheet.rs::set_row_value_index_mut", "rs/src/spreadsheet/spreadsheet_2007/parts/worksheet.rs::set_row_value_ref_mut"]}
{"id": "C28", "title": "Row properties and cells are independent", "statement": "Setting row properties never changes any cell, writing cells never changes row properties, and operations on one row never touch another.", "quantifier": "all histories", "why_tests_cant": "History-quantified frame property.", "anchors": ["rs/src/spreadsheet/spreadsheet_2007/parts/worksheet.rs::set_row_index_properties_mut", "rs/src/spreadsheet/spreadsheet_2007/parts/worksheet.rs::set_row_value_index_mut"]}
{"id": "C29", "title": "Cell typing follows the value", "statement": "A value written with automatic typing is stored as a number exactly when it is a Rust float literal, as a boolean exactly when it is true or false, and otherwise as a shared string whose id denotes the value.", "quantifier": "all strings", "why_tests_cant": "Exact characterisation over all strings.", "anchors": ["rs/src/spreadsheet/spreadsheet_2007/parts/worksheet.rs::set_row_value_index_mut"]}
{"id": "C30", "title": "The saved dimension covers the used cells", "statement": "For every sheet with at least one cell the saved dimension reference is the smallest rectangle (within columns 1..16384) containing all cells.", "quantifier": "all sheet contents", "why_tests_cant": "All contents.", "anchors": ["rs/src/spreadsheet/spreadsheet_2007/parts/worksheet.rs::serialize_dimension", "rs/src/spreadsheet/spreadsheet_2007/parts/worksheet.rs::set_row_value_index_mut"]}
{"id": "C31", "title": "Rows and cells are saved in increasing order without repeats", "statement": "The saved sheet data lists rows by strictly increasing number, and in each row cells by strictly increasing column, for any write order.", "quantifier": "all histories", "why_tests_cant": "History-quantified.", "anchors": ["rs/src/spreadsheet/spreadsheet_2007/parts/worksheet.rs::serialize_sheet_data"]}
{"id": "C32", "title": "Sheet data survives save and load", "statement": "Saving a sheet and loading it again gives the same cells (type, value, formula, style, metadata) at the same coordinates.", "quantifier": "all sheet contents", "why_tests_cant": "All contents.", "anchors": ["rs/src/spreadsheet/spreadsheet_2007/parts/worksheet.rs::serialize_sheet_data", "rs/src/spreadsheet/spreadsheet_2007/parts/worksheet.rs::deserialize_sheet_data"]}
{"id": "C33", "title": "Row properties survive save and load", "statement": "Saving and loading a sheet gives every row the properties it was given.", "quantifier": "all row property records", "why_tests_cant": "All records.", "anchors": ["rs/src/spreadsheet/spreadsheet_2007/parts/worksheet.rs::serialize_sheet_data", "rs/src/spreadsheet/spreadsheet_2007/parts/worksheet.rs::deserialize_sheet_data"]}
{"id": "C34", "title": "Setting a column changes only that column", "statement": "After setting the properties of a column, that column has exactly those properties and every other column has the properties it had.", "quantifier": "all column range lists and all columns", "why_tests_cant": "All interval configurations.", "anchors": ["rs/src/spreadsheet/spreadsheet_2007/parts/worksheet.rs::set_column_index_properties_mut"]}
{"id": "C35", "title": "Column properties survive save and load", "statement": "Saving and loading a sheet gives every column the properties it had.", "quantifier": "all column lists", "why_tests_cant": "All lists.", "anchors": ["rs/src/spreadsheet/spreadsheet_2007/parts/worksheet.rs::serialize_cols", "rs/src/spreadsheet/spreadsheet_2007/parts/worksheet.rs::deserialize_cols"]}
{"id": "C36", "title": "Sheet views survive save and load", "statement": "Opening a sheet and closing it again leaves its list of views unchanged.", "quantifier": "all view lists", "why_tests_cant": "All lists and any number of cycles.", "anchors": ["rs/src/spreadsheet/spreadsheet_2007/parts/worksheet.rs::serialize_sheet_views", "rs/src/spreadsheet/spreadsheet_2007/parts/worksheet.rs::deserialize_worksheet_views"]}
{"id": "C37", "title": "Unmanaged worksheet content is preserved", "statement": "Closing a sheet keeps every worksheet child element that the library does not manage, in order, and puts all children in schema order.", "quantifier": "all worksheet documents", "why_tests_cant": "All documents.", "anchors": ["rs/src/spreadsheet/spreadsheet_2007/parts/worksheet.rs::close_document"]}
{"id": "C38", "title": "Sheet list operations behave like list operations", "statement": "The list of sheet names after any history of add, rename and delete equals the list obtained by the obvious list operations: add appends, rename replaces in place, delete removes.", "quantifier": "all histories", "why_tests_cant": "History-quantified refinement.", "anchors": ["rs/src/spreadsheet/spreadsheet_2007/parts/workbook.rs::list_sheet_names", "rs/src/spreadsheet/spreadsheet_2007/parts/workbook.rs::add_sheet_mut", "rs/src/spreadsheet/spreadsheet_2007/parts/workbook.rs::rename_sheet_name_mut", "rs/src/spreadsheet/spreadsheet_2007/parts/worksheet.rs::get_sheet_file_name", "rs/src/spreadsheet/spreadsheet_2007/parts/worksheet.rs::delete_sheet_mut"]}
{"id": "C39", "title": "Sheet names are unique", "statement": "No history of operations yields two sheets with the same name.", "quantifier": "all histories", "why_tests_cant": "History-quantified.", "anchors": ["rs/src/spreadsheet/spreadsheet_2007/parts/worksheet.rs::get_sheet_file_name", "rs/src/spreadsheet/spreadsheet_2007/parts/workbook.rs::rename_sheet_name_mut"]}
{"id": "C40", "title": "Rename is exact and refuses clashes", "statement": "Renaming fails and changes nothing when the old name is missing or the new name exists; otherwise exactly the sheet with the old name changes, keeping its position, relationship id and flags.", "quantifier": "all sheet lists and names", "why_tests_cant": "All lists.", "anchors": ["rs/src/spreadsheet/spreadsheet_2007/parts/workbook.rs::rename_sheet_name_mut"]}
{"id": "C41", "title": "Hiding a sheet hides that sheet only", "statement": "Hiding a sheet makes it hidden in the saved workbook and leaves the visibility of every other sheet unchanged.", "quantifier": "all histories", "why_tests_cant": "History-quantified.", "anchors": ["rs/src/spreadsheet/spreadsheet_2007/parts/workbook.rs::hide_sheet_mut", "rs/src/spreadsheet/spreadsheet_2007/parts/workbook.rs::close_document"]}
{"id": "C42", "title": "Workbook view settings are saved and read back", "statement": "Each view setting holds the last value set, is independent of the others, and is the same after saving and loading.", "quantifier": "all histories of view settings", "why_tests_cant": "History-quantified.", "anchors": ["rs/src/spreadsheet/spreadsheet_2007/parts/workbook.rs::close_document", "rs/src/spreadsheet/spreadsheet_2007/parts/workbook.rs::load_sheet_names"]}
{"id": "C43", "title": "The active sheet chosen is saved", "statement": "The sheet set active is the active sheet of the saved workbook.", "quantifier": "all histories", "why_tests_cant": "History-quantified.", "anchors": ["rs/src/spreadsheet/spreadsheet_2007/parts/workbook.rs::set_active_sheet_mut", "rs/src/spreadsheet/spreadsheet_2007/parts/workbook.rs::close_document"]}
{"id": "C44", "title": "Every listed sheet resolves to a part of the package", "statement": "In the saved package every sheet element has a relationship id that the workbook relationships resolve to an existing part, sheet ids are 1..n and the order is that of the sheet list.", "quantifier": "all histories from a new workbook", "why_tests_cant": "History-quantified referential integrity.", "anchors": ["rs/src/spreadsheet/spreadsheet_2007/parts/workbook.rs::close_document", "rs/src/global/global_2007/parts/relations.rs::get_target_by_id", "rs/src/files/office_document.rs::save_as"]}
{"id": "C45", "title": "Cell writes reach the saved file", "statement": "Every cell written before saving is in the saved part of its sheet.", "quantifier": "all histories", "why_tests_cant": "History-quantified, depends on handle life times.", "anchors": ["rs/src/spreadsheet/spreadsheet_2007/parts/worksheet.rs::close_document", "rs/src/spreadsheet/spreadsheet_2007/excel.rs::save_as", "rs/src/files/office_document.rs::save_as"]}
{"id": "C46", "title": "A deleted sheet is gone from the saved file", "statement": "After deleting a sheet its name, relationship and part are absent from the saved package and other sheets are untouched.", "quantifier": "all histories", "why_tests_cant": "History-quantified.", "anchors": ["rs/src/spreadsheet/spreadsheet_2007/parts/worksheet.rs::delete_sheet_mut"]}
{"id": "C47", "title": "A sheet can be opened again after being closed", "statement": "After a sheet handle is flushed, the same sheet can be opened again in the same session.", "quantifier": "all histories", "why_tests_cant": "History-quantified.", "anchors": ["rs/src/spreadsheet/spreadsheet_2007/parts/worksheet.rs::new", "rs/src/global/global_2007/parts/relations.rs::close_document", "rs/src/files/office_document.rs::delete_document_mut"]}
{"id": "C48", "title": "A saved workbook can be opened again", "statement": "Every package saved by the library can be loaded by the library.", "quantifier": "all histories of a new workbook", "why_tests_cant": "Quantifies over all histories.", "anchors": ["rs/src/spreadsheet/spreadsheet_2007/excel.rs::new", "rs/src/spreadsheet/spreadsheet_2007/excel.rs::save_as", "rs/src/files/xml/xml_serialize.rs::xml_element_parser"]}
{"id": "C49", "title": "A failed add leaves the workbook unchanged", "statement": "If adding or opening a sheet fails, the list of sheets is the same as before.", "quantifier": "all histories", "why_tests_cant": "History-quantified failure atomicity.", "anchors": ["rs/src/spreadsheet/spreadsheet_2007/parts/worksheet.rs::new", "rs/src/spreadsheet/spreadsheet_2007/parts/worksheet.rs::get_sheet_file_name"]}
{"id": "C50", "title": "Deleting through a handle deletes that sheet", "statement": "Deleting through a handle removes the sheet the handle was opened on, whatever happened to the workbook in between.", "quantifier": "all interleavings of handle and workbook operations", "why_tests_cant": "Interleavings.", "anchors": ["rs/src/spreadsheet/spreadsheet_2007/parts/worksheet.rs::delete_sheet_mut", "rs/src/spreadsheet/spreadsheet_2007/parts/workbook.rs::rename_sheet_name_mut"]}
{"id": "C51", "title": "A style id keeps its meaning", "statement": "The style id returned for a setting resolves to the requested font, fill, border and alignment, and keeps doing so after any later style requests.", "quantifier": "all histories of style requests", "why_tests_cant": "History-quantified.", "anchors": ["rs/src/spreadsheet/spreadsheet_2007/services/style.rs::get_style_id_mut"]}
{"id": "C52", "title": "Equal settings get equal style ids", "statement": "Requesting the same setting again, after any other requests, returns the same style id.", "quantifier": "all histories", "why_tests_cant": "History-quantified.", "anchors": ["rs/src/spreadsheet/spreadsheet_2007/services/style.rs::get_style_id_mut"]}
{"id": "C53", "title": "Different visual settings get different style ids", "statement": "Two settings that differ in font, fill, border or alignment never get the same style id.", "quantifier": "all pairs of settings in any history", "why_tests_cant": "All pairs and histories.", "anchors": ["rs/src/spreadsheet/spreadsheet_2007/services/style.rs::get_style_id_mut"]}
{"id": "C54", "title": "The requested number format is applied", "statement": "The style id returned for a setting with a number format refers to that number format.", "quantifier": "all settings", "why_tests_cant": "All settings and histories.", "anchors": ["rs/src/spreadsheet/spreadsheet_2007/services/style.rs::get_style_id_mut", "rs/src/spreadsheet/spreadsheet_2007/models/style.rs::NumberFormatValues"]}
{"id": "C55", "title": "Styles survive save and load", "statement": "Saving the style part and loading it again gives the same fonts, fills, borders, number formats and cell formats in the same positions.", "quantifier": "all style tables", "why_tests_cant": "All tables.", "anchors": ["rs/src/spreadsheet/spreadsheet_2007/services/style.rs::save_content_to_tree_mut", "rs/src/spreadsheet/spreadsheet_2007/services/style.rs::load_content_to_database"]}
{"id": "C56", "title": "Enumerated names are read back as written", "statement": "For every enumerated setting, parsing the text it is written as gives the same setting, and distinct settings are written differently.", "quantifier": "all enumeration values", "why_tests_cant": "Finite but stated for every value of every enumeration together with default fall-back on unknown text.", "anchors": ["rs/src/spreadsheet/spreadsheet_2007/models/style.rs::get_enum", "rs/src/spreadsheet/spreadsheet_2007/models/worksheet.rs::CellDataType"]}
{"id": "C57", "title": "Creation time is kept, modification time updated", "statement": "Closing the core properties sets the modification time to now, keeps an existing creation time, and fills a missing one.", "quantifier": "all core property documents", "why_tests_cant": "All documents.", "anchors": ["rs/src/global/global_2007/parts/core_properties.rs::close_document"]}
{"id": "C58", "title": "FFI status tells the truth", "statement": "An FFI call returns the success status exactly when the operation succeeded.", "quantifier": "all calls and outcomes", "why_tests_cant": "All outcomes of the wrapped call.", "anchors": ["rs_ffi/src/spreadsheet/excel.rs", "rs_ffi/src/document/word.rs", "rs_ffi/src/presentation/power_point.rs"]}
{"id": "C59", "title": "Calculation chain survives load and save", "statement": "Loading and saving a calculation chain keeps every entry in order, and loading never crashes.", "quantifier": "all calculation chain parts", "why_tests_cant": "All part contents.", "anchors": ["rs/src/spreadsheet/spreadsheet_2007/services/calculation_chain.rs::load_content_to_database", "rs/src/spreadsheet/spreadsheet_2007/services/calculation_chain.rs::close_document"]}
{"id": "C60", "title": "Word and PowerPoint saves keep the package", "statement": "Creating or opening a Word or PowerPoint package and saving it keeps every part and yields valid root relationships and core properties.", "quantifier": "all packages", "why_tests_cant": "All packages.", "anchors": ["rs/src/document/document_2007/word.rs", "rs/src/presentation/presentation_2007/power_point.rs"]}
{"id": "C61", "title": "Out-of-range writes are refused", "statement": "A row write with a cell outside the columns of the file format (1 to 16384) is refused with an error.", "quantifier": "all sheets, rows, start columns and cell lists", "why_tests_cant": "All start columns and list lengths around the limits, in both build modes.", "anchors": ["rs/src/spreadsheet/spreadsheet_2007/parts/worksheet.rs::set_row_value_index_mut"]}
{"id": "C62", "title": "Requested fill colours are painted", "statement": "A style request with a background or foreground colour returns a cell format whose fill is painted, i.e. whose pattern is not none.", "quantifier": "all settings a user of the crate can make, all histories", "why_tests_cant": "All settings and histories.", "anchors": ["rs/src/spreadsheet/spreadsheet_2007/services/style.rs::get_style_id_mut", "rs/src/spreadsheet/spreadsheet_2007/models/style.rs::StyleSetting"]}
{"id": "C63", "title": "Every valid font can be loaded", "statement": "A style part whose fonts only have children allowed by the schema can be loaded.", "quantifier": "all font elements", "why_tests_cant": "All font elements.", "anchors": ["rs/src/spreadsheet/spreadsheet_2007/services/style.rs::load_content_to_database"]}
{"id": "C64", "title": "Saved style parts are in schema order", "statement": "If the elements of a style part that the library does not manage are in schema order, the saved part is in schema order as a whole.", "quantifier": "all style tables and documents", "why_tests_cant": "All documents.", "anchors": ["rs/src/spreadsheet/spreadsheet_2007/services/style.rs::save_content_to_tree_mut"]}
{"id": "C65", "title": "A workbook can always be saved", "statement": "After any history of calls on a new workbook, including failed ones and with handles still open, saving succeeds.", "quantifier": "all histories of a new workbook", "why_tests_cant": "History-quantified totality.", "anchors": ["rs/src/spreadsheet/spreadsheet_2007/excel.rs::save_as", "rs/src/spreadsheet/spreadsheet_2007/parts/workbook.rs::close_document", "rs/src/spreadsheet/spreadsheet_2007/services/style.rs::save_content_to_tree_mut", "rs/src/files/office_document.rs::save_as"]}
{"id": "C66", "title": "A new Word or PowerPoint file has a main document", "statement": "Creating a Word document or a presentation and saving it gives a package whose root relationships lead to a main document part.", "quantifier": "all environments and file names", "why_tests_cant": "Says what every reader of the file needs; no run of the library checks it.", "anchors": ["rs/src/document/document_2007/word.rs", "rs/src/presentation/presentation_2007/power_point.rs"]}
{"id": "C67", "title": "Styles asked for through the C interface are passed on", "statement": "Every setting in the style buffer of a style request through the C interface is the setting the crate is asked for.", "quantifier": "all style buffers", "why_tests_cant": "All combinations of settings.", "anchors": ["rs_ffi/src/spreadsheet/excel.rs::get_style_id_mut"]}
{"id": "C68", "title": "Malformed XML is refused", "statement": "Opening a part whose XML is not well-formed (mismatched, surplus or missing end tags, text or elements outside the root, no root) fails with an error.", "quantifier": "all byte strings taken as characters", "why_tests_cant": "All texts, including every truncation of a valid one.", "anchors": ["rs/src/files/xml/xml_serialize.rs::xml_element_parser", "rs/src/files/xml/xml_serialize.rs::vec_to_xml_doc_tree"]}
{"id": "C69", "title": "A well-formed document is read as what it stands for", "statement": "Reading any well-formed XML document, whoever wrote it, gives its element tree: tags, nesting, order, attribute values and the character data of every element.", "quantifier": "all well-formed documents, with any quotes, white space in tags, entities, comments, CDATA sections and processing instructions", "why_tests_cant": "All documents other programs may write.", "anchors": ["rs/src/files/xml/xml_serialize.rs::xml_element_parser", "rs/src/files/xml/xml_serialize.rs::get_attributes_string"]}
{"id": "C70", "title": "Relationship targets resolve as the packaging conventions say", "statement": "A relative target of a relationship names the part reached from the directory of the source part, a target with a leading slash is taken from the package root, and dot segments move within the tree.", "quantifier": "all source parts, all targets", "why_tests_cant": "All directories and targets other programs may write.", "anchors": ["rs/src/global/global_2007/parts/relations.rs::get_relative_path", "rs/src/global/global_2007/parts/relations.rs::get_target_by_id"]}
{"id": "C71", "title": "An edit changes exactly the element it names, as it says", "statement": "In any document, adding a child, inserting before or after a tag or at a position, setting attributes or text, ordering children and popping children by tag change exactly the element with the given id, in exactly the stated way; all other elements, their order and their ids stay; a refused edit changes nothing; popped elements come back whole.", "quantifier": "all reachable documents, all elements, all edits", "why_tests_cant": "Every sequence of edits on every tree shape; the arena could hit a wrong element through a stale id or a wrong position.", "anchors": ["rs/src/files/xml/xml_tree.rs::append_child_mut", "rs/src/files/xml/xml_tree.rs::insert_children_before_tag_mut", "rs/src/files/xml/xml_tree.rs::insert_children_after_tag_mut", "rs/src/files/xml/xml_tree.rs::insert_child_at_mut", "rs/src/files/xml/xml_tree.rs::set_attribute_mut", "rs/src/files/xml/xml_tree.rs::set_value_mut", "rs/src/files/xml/xml_tree.rs::order_child_mut", "rs/src/files/xml/xml_tree.rs::pop_elements_by_tag_mut"]}
{"id": "C72", "title": "Saved style tables announce their size", "statement": "After loading any style part, asking for any styles and saving, each of the six style tables is in the part exactly once, has exactly the entries the library holds, and its count attribute is the number of its entries.", "quantifier": "all style parts, all histories of style requests, all hash functions", "why_tests_cant": "Needs the tables of arbitrary loaded files after arbitrary requests; a wrong count or a doubled table only shows in other programs.", "anchors": ["rs/src/spreadsheet/spreadsheet_2007/services/style.rs::save_content_to_tree_mut", "rs/src/spreadsheet/spreadsheet_2007/services/style.rs::load_content"]}
{"id": "C73", "title": "Saved formats point to existing entries", "statement": "Every cell format and parent format of a saved style part points to fonts, fills and borders the part has, every cell format to a parent format it has, and every style id handed out is the position of a cell format, then and later.", "quantifier": "all histories of style requests on a new workbook or on loaded tables that were consistent, all hash functions, any number of entries", "why_tests_cant": "Ids are cut to 16 bits and entries shared by hash; no test reaches 65536 entries or chooses the hash.", "anchors": ["rs/src/spreadsheet/spreadsheet_2007/services/style.rs::get_style_id_mut", "rs/src/spreadsheet/spreadsheet_2007/services/style.rs::save_content_to_tree_mut"]}
{"id": "C74", "title": "Sheets made through the C interface can be read in the saved file", "statement": "A sheet opened by a C program is in the saved package with a part that can be read.", "quantifier": "all C programs on a new workbook", "why_tests_cant": "Depends on when handles are closed, over all programs.", "anchors": ["rs_ffi/src/spreadsheet/excel.rs::excel_add_sheet", "rs_ffi/src/spreadsheet/excel.rs::excel_get_sheet", "rs_ffi/src/spreadsheet/excel.rs::excel_save_as"]}
{"id": "C75", "title": ".NET programs never use freed memory", "statement": "No sequence of method calls on a .NET Excel object passes the library an object it has freed.", "quantifier": "all sequences of method calls, all disks", "why_tests_cant": "A test that happens to read freed memory often still passes.", "anchors": ["cs/openxml_office/spreadsheet/Excel.cs::SaveAs", "rs_ffi/src/spreadsheet/excel.rs::excel_save_as"]}
{"id": "C76", "title": ".NET methods throw exactly when they fail", "statement": "A method of the .NET classes returns exactly when what it was asked to do was done, otherwise it throws the exception of that kind of failure; names arrive as given.", "quantifier": "all workbooks, all arguments, all disks", "why_tests_cant": "All failure causes of all calls through three languages.", "anchors": ["cs/openxml_office/spreadsheet/Excel.cs::AddSheet", "cs/openxml_office/spreadsheet/Excel.cs::RenameSheet", "cs/openxml_office/global/StatusCode.cs::ProcessStatusCode"]}
{"id": "C77", "title": "Saved workbooks are in schema order", "statement": "In a saved workbook element the children defined by the schema are in the order of the schema, and all children the library does not manage are kept with their content.", "quantifier": "all workbook elements loaded, all sheet lists and views", "why_tests_cant": "All documents; tests sample a few orders.", "anchors": ["rs/src/spreadsheet/spreadsheet_2007/parts/workbook.rs::close_document", "rs/src/global/references/order_dictionary.rs", "rs/src/files/xml/xml_tree.rs::order_child_mut"]}
{"id": "C78", "title": "Parts see the content of their document only", "statement": "What a part reads from its document, and the file written after it is saved, depend only on the content of the document and the data of the part, never on how the document came to be (ids, elements added or taken out before, edit history); a document stays usable and writable after each of these steps.", "quantifier": "all documents the library can hold, all part data, every part kind", "why_tests_cant": "Histories of a document are unbounded, and a stale id shows only in some of them.", "anchors": ["rs/src/spreadsheet/spreadsheet_2007/parts/workbook.rs::close_document", "rs/src/spreadsheet/spreadsheet_2007/parts/worksheet.rs::close_document", "rs/src/spreadsheet/spreadsheet_2007/services/style.rs", "rs/src/spreadsheet/spreadsheet_2007/services/share_string.rs", "rs/src/spreadsheet/spreadsheet_2007/services/calculation_chain.rs", "rs/src/global/global_2007/parts/relations.rs", "rs/src/global/global_2007/parts/content_types.rs", "rs/src/global/global_2007/parts/core_properties.rs", "rs/src/files/xml/xml_tree.rs"]}
{"id": "C79", "title": "The reason of a failure reaches the caller", "statement": "When a call fails, the text of the library's error reaches the caller: as the error string of the C interface and as the message of the .NET exception.", "quantifier": "all workbooks, all calls, all errors", "why_tests_cant": "All failure causes of all calls through three languages.", "anchors": ["cs/openxml_office/global/StatusCode.cs::ProcessStatusCode", "rs_ffi/src/spreadsheet/excel.rs::excel_add_sheet", "rs_ffi/src/utils.rs::chain_error"]}
{"id": "C80", "title": "Calls never meet data in use", "statement": "No sequence of calls makes the library ask for internal data (package, document, relationships, shared services, sheet list) that one of its own callers still holds, so no call fails or panics for that reason, also when earlier calls failed and when handles are dropped at any time.", "quantifier": "all sequences of calls, all branches, failures and drop points, all ways handles may refer to the same document", "why_tests_cant": "A RefCell conflict shows up only on the particular nesting of calls, error exits and destructors that produces it.", "anchors": ["rs/src/spreadsheet/spreadsheet_2007/parts/worksheet.rs::close_document", "rs/src/files/office_document.rs::close_xml_document", "rs/src/files/xml/xml_tree.rs::pop_child_mut"]}
{"id": "C81", "title": "Editing an existing workbook keeps its other parts", "statement": "When an existing workbook file is opened, edited in any way and saved, every part of the file that is not one of the workbook's own parts and is not asked for as a sheet is in the saved file byte for byte; that includes every image, drawing or macro no workbook relationship leads to. If all calls succeeded no part of the file is missing from the saved file and no name occurs twice.", "quantifier": "all workbook files, all histories of calls, all parts", "why_tests_cant": "Which parts are touched depends on the relationships of the file, the names chosen for new sheets and the whole history of calls.", "anchors": ["rs/src/spreadsheet/spreadsheet_2007/excel.rs", "rs/src/spreadsheet/spreadsheet_2007/parts/workbook.rs", "rs/src/files/office_document.rs", "rs/src/global/global_2007/parts/relations.rs"]}
{"id": "C82", "title": "The sheet list, strings and styles of an existing workbook survive", "statement": "When an existing workbook file is opened, edited in any way and saved, the saved file lists the sheets of the session in order with their numbers, names, relationships and states; the saved strings, calculation chain and styles are those of the session; calculation chain entries still name the sheets they named.", "quantifier": "all readable workbook files, all histories of calls", "why_tests_cant": "Files of other programs use any numbers, states and markup; what is written back depends on the file, the history and the whole save path.", "anchors": ["rs/src/spreadsheet/spreadsheet_2007/excel.rs", "rs/src/spreadsheet/spreadsheet_2007/parts/workbook.rs", "rs/src/spreadsheet/spreadsheet_2007/services/share_string.rs", "rs/src/spreadsheet/spreadsheet_2007/services/calculation_chain.rs", "rs/src/spreadsheet/spreadsheet_2007/services/style.rs"]}
{"id": "C83", "title": "A saved existing workbook can be opened again", "statement": "After any history of calls on an existing workbook the saved file can be opened again, with the same parts, relationships, sheets, strings, chain and styles.", "quantifier": "all readable workbook files, all histories of calls", "why_tests_cant": "Opening needs eight parts to be found and read; whether they are depends on the relationships of the original file and everything done since.", "anchors": ["rs/src/spreadsheet/spreadsheet_2007/excel.rs", "rs/src/spreadsheet/spreadsheet_2007/parts/workbook.rs", "rs/src/files/office_document.rs", "rs/src/global/global_2007/parts/relations.rs", "rs/src/global/global_2007/parts/content_types.rs"]}
{"id": "C84", "title": "Cells of an existing workbook keep their text and format", "statement": "A text or a cell format of an existing workbook keeps its number: whatever is added later, the saved file has the same text and format under that number, so cells in sheets nobody touched still show what they showed.", "quantifier": "all readable workbook files, all histories of calls, all numbers", "why_tests_cant": "Untouched sheets refer to strings and formats by number; one shifted entry changes cells nobody looked at.", "anchors": ["rs/src/spreadsheet/spreadsheet_2007/excel.rs", "rs/src/spreadsheet/spreadsheet_2007/services/share_string.rs", "rs/src/spreadsheet/spreadsheet_2007/services/style.rs"]}
{"id": "C85", "title": "Editing a sheet of an existing workbook changes only what was written", "statement": "Open a workbook file, ask for one of its sheets, edit it through the handle while working on other sheets, drop the handle, save: in the saved file every cell and row written holds what was last written, every other cell, row and column what it held in the file, and everything in the sheet the library does not manage is still there.", "quantifier": "all readable workbook files and sheets, all histories of calls before, during and after the edits, all cells", "why_tests_cant": "A loss shows only for the particular mix of old content, edits and other calls; every cell and unmanaged element of every sheet matters.", "anchors": ["rs/src/spreadsheet/spreadsheet_2007/excel.rs", "rs/src/spreadsheet/spreadsheet_2007/parts/worksheet.rs", "rs/src/spreadsheet/spreadsheet_2007/parts/workbook.rs", "rs/src/files/office_document.rs"]}
{"id": "C86", "title": "Edits to an existing workbook are there when it is opened again", "statement": "Open a workbook file, ask for a sheet, edit it, drop the handle, save under any name, open the saved file and ask for the sheet by its name: it shows what was written and, elsewhere, what it showed before.", "quantifier": "all readable workbook files and sheets, all histories of calls before, during and after the edits, all cells", "why_tests_cant": "The whole cycle through six layers, over all files and histories.", "anchors": ["rs/src/spreadsheet/spreadsheet_2007/excel.rs", "rs/src/spreadsheet/spreadsheet_2007/parts/worksheet.rs", "rs/src/spreadsheet/spreadsheet_2007/parts/workbook.rs", "rs/src/files/office_document.rs", "rs/src/global/global_2007/parts/relations.rs"]}
{"id": "C87", "title": "Deleting a sheet of an existing workbook removes that sheet and nothing else", "statement": "Open a workbook file, ask for a sheet, delete it through the handle, save: the saved file lists exactly the other sheets in their order, has neither the part of the deleted sheet nor a relationship to it, and every other part is as if the sheet had not been deleted.", "quantifier": "all readable workbook files, all histories of calls, all sheets", "why_tests_cant": "Depends on how the file spells its targets, on what else is open and on every call before.", "anchors": ["rs/src/spreadsheet/spreadsheet_2007/parts/worksheet.rs::delete_sheet_mut", "rs/src/global/global_2007/parts/relations.rs", "rs/src/spreadsheet/spreadsheet_2007/parts/workbook.rs", "rs/src/spreadsheet/spreadsheet_2007/excel.rs"]}
{"id": "C88", "title": "A workbook that could be opened can be saved", "statement": "Open a workbook file, make any calls that return: saving then succeeds.", "quantifier": "all readable workbook files, all histories of calls", "why_tests_cant": "Depends on every part of the file the library writes to and on the whole history.", "anchors": ["rs/src/spreadsheet/spreadsheet_2007/excel.rs", "rs/src/files/xml/xml_serialize.rs", "rs/src/spreadsheet/spreadsheet_2007/parts/workbook.rs"]}
{"id": "C89", "title": "Cells of an opened sheet that are not written keep everything they show", "statement": "Open a workbook file, ask for a sheet, edit it, drop the handle, save: every cell that was not written has in the saved XML the same style, type, formula with its kind and range, value and metadata as in the XML of the file.", "quantifier": "all readable workbook files and sheets, all histories of calls, all cells", "why_tests_cant": "Every kind of cell other programs write, through reading, storing and writing; a cell nobody edits is what nobody tests.", "anchors": ["rs/src/spreadsheet/spreadsheet_2007/parts/worksheet.rs", "rs/src/spreadsheet/spreadsheet_2007/models/worksheet.rs", "rs/src/spreadsheet/spreadsheet_2007/excel.rs"]}
{"id": "C90", "title": "Rows and columns of an opened sheet look as before", "statement": "Open a workbook file, ask for a sheet, edit it, drop the handle, save: a row or column that was given no properties is as before in the saved XML: hidden or not, height or width, style, outline level, collapsed or not.", "quantifier": "all readable workbook files and sheets, all histories of calls, all rows and columns", "why_tests_cant": "Depends on how other programs write flags and numbers, for every row and column of every file.", "anchors": ["rs/src/spreadsheet/spreadsheet_2007/parts/worksheet.rs", "rs/src/spreadsheet/spreadsheet_2007/models/worksheet.rs", "rs/src/spreadsheet/spreadsheet_2007/excel.rs"]}
{"id": "C91", "title": "Views of an opened sheet look as before", "statement": "Open a workbook file, ask for a sheet, edit it, drop the handle, save: the saved XML has the views of the file with their settings, frozen panes and selections.", "quantifier": "all readable workbook files and sheets, all histories of calls, all views", "why_tests_cant": "Views are written by other programs and cannot be set through this library, so no test of its own makes one.", "anchors": ["rs/src/spreadsheet/spreadsheet_2007/parts/worksheet.rs", "rs/src/spreadsheet/spreadsheet_2007/models/worksheet.rs", "rs/src/spreadsheet/spreadsheet_2007/excel.rs"]}
{"id": "C92", "title": "A sheet that cannot be read is left as it is", "statement": "Open a workbook file and ask for a sheet the library cannot read (the call returns an error), do anything else, save: the sheet in the saved file still has its cells.", "quantifier": "all readable workbook files and sheets, all histories of calls, all reasons to refuse a sheet", "why_tests_cant": "Needs every kind of sheet content the reader rejects, combined with what happens to the half-read document until the save.", "anchors": ["rs/src/spreadsheet/spreadsheet_2007/parts/worksheet.rs::new", "rs/src/spreadsheet/spreadsheet_2007/parts/worksheet.rs::deserialize_sheet_data", "rs/src/files/office_document.rs", "rs/src/spreadsheet/spreadsheet_2007/excel.rs"]}
{"id": "C93", "title": "Damaged files are reported, not a crash", "statement": "Opening a file, any calls on the workbook, and saving it either succeed or return an error; whatever the file contains, they do not crash the program.", "quantifier": "all files, all histories of calls, all saves, both build profiles", "why_tests_cant": "A fuzzer finds some of the crashing files; that there are no others needs every path through readers, loaders and savers, and every history between open and save.", "anchors": ["rs/src/files/office_document.rs", "rs/src/global/global_2007/parts/relations.rs", "rs/src/global/global_2007/parts/core_properties.rs", "rs/src/spreadsheet/spreadsheet_2007/parts/workbook.rs", "rs/src/spreadsheet/spreadsheet_2007/parts/worksheet.rs", "rs/src/spreadsheet/spreadsheet_2007/services/calculation_chain.rs", "rs/src/spreadsheet/spreadsheet_2007/excel.rs"]}
{"id": "C94", "title": "The order of hash maps does not matter", "statement": "The library keeps attributes, namespaces, open parts and extensions in hash maps, which are gone through in another order in every run of a program. Opening the same file, running the same program and saving gives the same answers and the same file, up to the order of the parts, of namespace declarations and of content type entries, and the saved files open alike.", "quantifier": "all files, all orders of their entries, all programs, all orders of all hash maps at every call, both build profiles", "why_tests_cant": "A test sees one order per run; a dependence on the order shows up once in many runs, and only for some maps.", "anchors": ["rs/src/files/office_document.rs", "rs/src/global/global_2007/parts/content_types.rs", "rs/src/files/xml/xml_tree.rs::set_attribute_mut", "rs/src/files/xml/xml_deserialize.rs::generate_xml_element", "rs/src/spreadsheet/spreadsheet_2007/parts/workbook.rs", "rs/src/spreadsheet/spreadsheet_2007/excel.rs"]}
{"id": "C95", "title": "A styled cell looks as asked in the saved file", "statement": "A cell (or row) last written with the id get_style_id returned for a setting refers, in the saved file, to a format whose font, fill, borders and alignment are those of the setting, whatever else is done before, between and after: other styles, other sheets, renaming, dropping the handle.", "quantifier": "all histories on new workbooks and on existing ones, all settings, all cells and rows, both build profiles", "why_tests_cant": "The cell and the style are in different parts, written at different times; a test tries a few settings and looks at one part. The losses (italics, underlining) only show after a save and a load.", "anchors": ["rs/src/spreadsheet/spreadsheet_2007/services/style.rs::get_style_id_mut", "rs/src/spreadsheet/spreadsheet_2007/parts/worksheet.rs::close_document", "rs/src/spreadsheet/spreadsheet_2007/services/style.rs::save_content_to_tree_mut", "rs/src/spreadsheet/spreadsheet_2007/excel.rs::save_as"]}
{"id": "C96", "title": "When and in which order sheets are dropped does not matter", "statement": "A sheet is written into the workbook when its handle goes out of scope. Dropping the same handles in another order, or a handle earlier or later among writes to other sheets, style requests, renaming, hiding, activating and view changes, gives the same answers to all later calls and the same saved file.", "quantifier": "all histories on new and existing workbooks, all sets of handles, all orders, all later programs", "why_tests_cant": "The number of orders grows with the factorial of the number of sheets; other languages drop handles at moments nobody chooses.", "anchors": ["rs/src/spreadsheet/spreadsheet_2007/parts/worksheet.rs::close_document", "rs/src/global/global_2007/parts/relations.rs::close_document", "rs/src/files/office_document.rs::close_xml_document"]}
{"id": "C97", "title": "Opening and saving again changes nothing", "statement": "A file saved by the library, opened and saved again without any call in between, as often as one likes, reads the same in every part, but for the time of the last change.", "quantifier": "all existing workbooks, all histories before the first save, any number of repetitions", "why_tests_cant": "Drift by repetition (flags that turn around, text that is escaped once more each time, tables that grow) shows only after several rounds, and differently for each kind of content.", "anchors": ["rs/src/spreadsheet/spreadsheet_2007/excel.rs::save_as", "rs/src/spreadsheet/spreadsheet_2007/parts/workbook.rs::load_sheet_names", "rs/src/spreadsheet/spreadsheet_2007/parts/workbook.rs::close_document", "rs/src/global/global_2007/parts/core_properties.rs::close_document", "rs/src/spreadsheet/spreadsheet_2007/services/style.rs::close_document"]}
{"id": "C98", "title": "Open sheets never get in each other's way", "statement": "While sheets are held, no two of them work on the same part, none works on a part of the workbook itself, each finds its document whatever else is called, a sheet that is open is not handed out a second time and asking for it changes nothing, and no call changes an open sheet it is not made through.", "quantifier": "all new and existing workbooks, all histories of calls with any number of open sheets", "why_tests_cant": "Handles find their documents through weak references by part name; a clash needs a particular order of adding, opening, dropping and deleting, and silently loses edits.", "anchors": ["rs/src/spreadsheet/spreadsheet_2007/parts/worksheet.rs::new", "rs/src/spreadsheet/spreadsheet_2007/parts/worksheet.rs::close_document", "rs/src/files/office_document.rs::get_xml_tree_mut", "rs/src/files/office_document.rs::close_xml_document", "rs/src/spreadsheet/spreadsheet_2007/excel.rs::get_worksheet"]}
{"id": "C99", "title": "A sheet with a new name can always be added", "statement": "Asking for a sheet under a name that is not listed succeeds, whatever was done before and whatever is open; the new sheet is listed last, is empty, and no other listed sheet leads to its part.", "quantifier": "all histories of new and of opened workbooks, failed calls, open sheets, deletions and renames included", "why_tests_cant": "The part of a new sheet gets a number computed from the length of the list and the closed parts; which numbers are taken depends on every call before and on what is open.", "anchors": ["rs/src/spreadsheet/spreadsheet_2007/parts/worksheet.rs::get_sheet_file_name", "rs/src/spreadsheet/spreadsheet_2007/parts/worksheet.rs::new", "rs/src/files/office_document.rs::check_file_exist", "rs/src/global/global_2007/parts/relations.rs::set_new_relationship_mut"]}
{"id": "C100", "title": "Saved workbooks use sheet names that spreadsheet programs accept", "statement": "Every sheet listed in a saved workbook has a name of 1 to 31 characters (UTF-16 units), without : \\ / ? * [ ] and without an apostrophe at either end, and no two names differ in case only; other names are refused when a sheet is added or renamed.", "quantifier": "all histories of a new workbook, all texts as names", "why_tests_cant": "Names come from users; whether a bad one can get into a file by any sequence of calls is a question about all texts and histories.", "anchors": ["rs/src/spreadsheet/spreadsheet_2007/parts/worksheet.rs::get_sheet_file_name", "rs/src/spreadsheet/spreadsheet_2007/parts/workbook.rs::rename_sheet_name_mut", "rs/src/spreadsheet/spreadsheet_2007/parts/workbook.rs::close_document"]}
{"id": "C101", "title": "Saved cells lie in the grid of the file format", "statement": "Every cell of a saved sheet lies in rows 1 to 1048576 and columns 1 to 16384; writes elsewhere are refused.", "quantifier": "all histories of a new workbook, all rows and columns", "why_tests_cant": "Numbers of 32 and 16 bits; any single accepted number outside makes a file that other programs report as damaged.", "anchors": ["rs/src/spreadsheet/spreadsheet_2007/parts/worksheet.rs::set_row_value_index_mut", "rs/src/spreadsheet/spreadsheet_2007/parts/worksheet.rs::serialize_sheet_data"]}
{"id": "C102", "title": "What is written is well-formed XML", "statement": "The text written for a document is a well-formed XML 1.0 document, whatever texts, attribute values and names were set through the library, and a program that reads XML by the standard finds in it the elements, names, attributes, texts and children of the document in their order.", "quantifier": "all documents made by any edits or by reading, all texts, both build profiles", "why_tests_cant": "Files are opened by other programs. The library's own reader is lenient and shares its mistakes, so writing and reading back shows nothing about other readers; one character in one text makes a whole file unreadable.", "anchors": ["rs/src/files/xml/xml_deserialize.rs::generate_xml_element", "rs/src/files/xml/xml_deserialize.rs::xml_tree_to_vec"]}
{"id": "C103", "title": "Other programs read the texts that were set", "statement": "A program that reads XML by the standard finds in a written document exactly the texts and attribute values the document held, line ends and tabs included.", "quantifier": "all documents, all texts and attribute values", "why_tests_cant": "XML readers change line ends in texts and white space in attributes; the library's own reader does not, so its tests cannot see it.", "anchors": ["rs/src/files/xml/xml_deserialize.rs::generate_xml_element"]}
{"id": "C104", "title": "Every part of a saved workbook is well-formed XML", "statement": "Whatever is done to a new workbook, in the file saved from it every part - workbook, sheets, strings, styles, relationships, core properties, content types - is a well-formed XML document.", "quantifier": "all histories of calls from a new workbook, all texts, formulas, names and styles handed over, sheets open or dropped, any failed calls", "why_tests_cant": "A test saves a few texts and reads the file with the library itself, whose reader is more lenient than the XML standard.", "anchors": ["rs/src/files/xml/xml_deserialize.rs::generate_xml_element", "rs/src/spreadsheet/spreadsheet_2007/excel.rs::save_as", "rs/src/spreadsheet/spreadsheet_2007/parts/workbook.rs::close_document", "rs/src/spreadsheet/spreadsheet_2007/services/style.rs::save_content_to_tree_mut", "rs/src/files/office_document.rs::save_as"]}
{"id": "C105", "title": "Other programs find in a saved file the cells that were written", "statement": "Write cells through a sheet handle, do anything else, save: a program that reads the sheet's part and the shared strings as the XML and spreadsheet standards say finds exactly the cells written, each in its row with its style, its formula and the value last written - the number, the truth value, the error or the very text.", "quantifier": "all histories of calls from a new workbook, all cells, values and formulas, both build profiles", "why_tests_cant": "Loading the file with the same library shows nothing about other readers: both sides can share a mistake, and the library's reader trims, repairs and skips. The claim is about all texts, all cells and all histories between the write and the save.", "anchors": ["rs/src/spreadsheet/spreadsheet_2007/parts/worksheet.rs::serialize_sheet_data", "rs/src/spreadsheet/spreadsheet_2007/parts/worksheet.rs::set_row_value_index_mut", "rs/src/spreadsheet/spreadsheet_2007/services/share_string.rs::close_document", "rs/src/files/xml/xml_deserialize.rs::generate_xml_element", "rs/src/spreadsheet/spreadsheet_2007/excel.rs::save_as"]}
{"id": "C106", "title": "Other programs find the sheets of a saved workbook by their names", "statement": "Save a workbook: a program that starts at the root relationships and follows relationships, content types and namespaces as the packaging and file format standards say finds the workbook, its list of sheets with the names, order and visibility the library reports, behind every name exactly one worksheet, the shared strings, and in each sheet the cells that were written to it - also after sheets were renamed, deleted, hidden or added.", "quantifier": "all histories of calls from a new workbook, all names and cells, both build profiles", "why_tests_cant": "Opening a few files elsewhere shows a few files. The link from a name to the cells runs through five parts, ids, prefixes and paths that every add, rename and delete changes; the claim is about every history.", "anchors": ["rs/src/spreadsheet/spreadsheet_2007/excel.rs::save_as", "rs/src/spreadsheet/spreadsheet_2007/parts/workbook.rs::close_document", "rs/src/global/global_2007/parts/relations.rs::save_relationship_to_doc", "rs/src/global/global_2007/parts/content_types.rs::create_xml_file", "rs/src/spreadsheet/spreadsheet_2007/excel.rs::rename_sheet_name_mut", "rs/src/spreadsheet/spreadsheet_2007/parts/worksheet.rs::delete_sheet_mut"]}
{"id": "C107", "title": "Other programs see cells in the styles they were given", "statement": "Ask for a style, give its id to a cell and save: a program that finds the styles part and the cell as the standards say finds, behind the style number of the cell, a format with the font (name, size, colour, bold, italic, underlining, not tied to the theme), fill, border lines and colours, alignment and number format that were asked for, and the format says that they apply.", "quantifier": "all histories of calls from a new workbook, all settings and cells, both build profiles", "why_tests_cant": "The way from a cell to its looks goes through numbers into five tables that every later request extends; a few files opened elsewhere show a few settings, and the library's own reader drops what it does not keep (italics), so reading back in a test hides what is in the file.", "anchors": ["rs/src/spreadsheet/spreadsheet_2007/services/style.rs::get_style_id_mut", "rs/src/spreadsheet/spreadsheet_2007/services/style.rs::save_content_to_tree_mut", "rs/src/spreadsheet/spreadsheet_2007/parts/worksheet.rs::serialize_sheet_data", "rs/src/spreadsheet/spreadsheet_2007/excel.rs::save_as"]}
{"id": "C108", "title": "Other programs find the rows and columns as they were set", "statement": "Set properties of rows and columns through a sheet handle, write cells, and save: a program that finds the sheet by its name and reads it as the file format says finds every row touched exactly once and no other row, with the height, style, outline level and the hidden, collapsed, thick-edge and phonetic switches last given to it (on if true was given, off if false or nothing was), and every column with the width, style and hiding given to it.", "quantifier": "all histories of calls from a new workbook, all rows, columns and property records, both build profiles", "why_tests_cant": "What a row looks like elsewhere depends on pairs of attributes (a height counts only if marked as set), on defaults of the format and on the whole history before the save; the library's own reader applies its own defaults, so reading back in a test cannot show it.", "anchors": ["rs/src/spreadsheet/spreadsheet_2007/parts/worksheet.rs::set_row_index_properties_mut", "rs/src/spreadsheet/spreadsheet_2007/parts/worksheet.rs::set_column_index_properties_mut", "rs/src/spreadsheet/spreadsheet_2007/parts/worksheet.rs::serialize_sheet_data", "rs/src/spreadsheet/spreadsheet_2007/parts/worksheet.rs::serialize_cols", "rs/src/spreadsheet/spreadsheet_2007/excel.rs::save_as"]}
{"id": "C109", "title": "Cells of sheets other programs wrote are what those programs see", "statement": "Open a worksheet written by any other program, in whatever way XML allows: for every cell a program following the file format sees in it (reference, style, type, formula, value) the library holds a cell at that place with the same style, type, formula and value, and it holds no other cells; after editing and saving, every cell not written still says the same.", "quantifier": "all texts well formed by the XML grammar, all cells; all sessions with the sheet for the saved file", "why_tests_cant": "Other programs choose freely among quotes, white space, character references, comments, processing instructions, empty-element tags, extra elements; no set of sample files covers the ways one sheet may be written.", "anchors": ["rs/src/files/xml/xml_serialize.rs::xml_element_parser", "rs/src/files/xml/xml_serialize.rs::get_attributes_string", "rs/src/spreadsheet/spreadsheet_2007/parts/worksheet.rs::initialize_worksheet", "rs/src/spreadsheet/spreadsheet_2007/parts/worksheet.rs::serialize_sheet_data"]}
{"id": "C110", "title": "The strings of an opened workbook are the strings other programs see", "statement": "Open a workbook whose shared strings part was written by any other program, in whatever way XML allows: the string table of the library has, number by number, the texts a program following the file format sees there, so that the numbers in the cells lead to the same texts.", "quantifier": "all workbook files, all texts of the strings part well formed by the XML grammar", "why_tests_cant": "A shift by one or a lost piece of text changes what every later cell says; which items of the part trigger it depends on how the other program wrote them.", "anchors": ["rs/src/spreadsheet/spreadsheet_2007/services/share_string.rs::load_content_to_database", "rs/src/files/xml/xml_serialize.rs::xml_element_parser"]}
{"id": "C111", "title": "Other programs see edited foreign sheets with everything else as it was", "statement": "Open a workbook other programs wrote, edit a sheet through its handle while doing anything else, drop the handle, save: whoever reads the saved sheet and strings by the rules of XML finds at every place not written the cell that was there, with the same row, style, type, formula, text and value, once, and none where none was; and at every place written exactly one cell with what was last written.", "quantifier": "all workbook files, all sessions with edits of the sheet, all cells, both build profiles", "why_tests_cant": "Both ends are other programs: the sheet is read from any text XML allows and the result is judged by the grammar and the file format, not by the library reading its own output; every cell, every session.", "anchors": ["rs/src/files/xml/xml_serialize.rs::xml_element_parser", "rs/src/spreadsheet/spreadsheet_2007/parts/worksheet.rs::initialize_worksheet", "rs/src/spreadsheet/spreadsheet_2007/parts/worksheet.rs::serialize_sheet_data", "rs/src/spreadsheet/spreadsheet_2007/services/share_string.rs::close_document", "rs/src/files/xml/xml_deserialize.rs::generate_xml_element", "rs/src/spreadsheet/spreadsheet_2007/excel.rs::save_as"]}
{"id": "C112", "title": "Edited foreign sheets and strings are still well-formed XML", "statement": "Open a workbook other programs wrote, edit a sheet through its handle while doing anything else, giving only texts XML can hold, drop the handle, save: the sheet and the strings part of the saved file are well-formed XML, so that every program can read them at all.", "quantifier": "all workbook files, all sessions with edits of the sheet, all texts given, both build profiles", "why_tests_cant": "One raw character or unescaped reference that survives from the opened text makes the whole part unreadable; what survives depends on every element of the opened file the library keeps, and on every session.", "anchors": ["rs/src/files/xml/xml_serialize.rs::xml_element_parser", "rs/src/spreadsheet/spreadsheet_2007/parts/worksheet.rs::initialize_worksheet", "rs/src/spreadsheet/spreadsheet_2007/parts/worksheet.rs::serialize_sheet_data", "rs/src/spreadsheet/spreadsheet_2007/services/share_string.rs::close_document", "rs/src/files/xml/xml_deserialize.rs::generate_xml_element", "rs/src/spreadsheet/spreadsheet_2007/excel.rs::save_as"]}
{"id": "C113", "title": "The workbook's own parts stay well-formed XML", "statement": "Open a workbook other programs wrote, do anything with it, giving only texts XML can hold, save: both relationship parts, the core properties, the workbook, the theme, the strings, the calculation chain and the styles are all in the saved file and all well-formed XML, so that every program can read them at all.", "quantifier": "all workbook files, all sessions whatever calls fail, all texts given, both build profiles", "why_tests_cant": "Each of these parts mixes elements kept from the opened file with elements rebuilt from what was loaded and changed; one raw character in any of them makes the workbook unreadable, for some file and some session.", "anchors": ["rs/src/files/xml/xml_serialize.rs::xml_element_parser", "rs/src/files/xml/xml_deserialize.rs::generate_xml_element", "rs/src/spreadsheet/spreadsheet_2007/services/style.rs::load_content", "rs/src/spreadsheet/spreadsheet_2007/services/style.rs::save_content_to_tree_mut", "rs/src/spreadsheet/spreadsheet_2007/parts/workbook.rs::load_sheet_names", "rs/src/spreadsheet/spreadsheet_2007/parts/workbook.rs::close_document", "rs/src/global/global_2007/parts/relations.rs::save_relationship_to_doc", "rs/src/spreadsheet/spreadsheet_2007/excel.rs::save_as"]}
{"id": "C114", "title": "Every part of a saved workbook is untouched or well-formed", "statement": "Open a workbook other programs wrote, do anything with it, giving only texts XML can hold, save: every part in the saved file, sheets and their relationships, parts left open and parts never looked at included, is exactly what it was in the opened file or is well-formed XML. Only the list of content types is not covered.", "quantifier": "all workbook files, all sessions whatever calls fail, all texts given, all parts, both build profiles", "why_tests_cant": "A part can be opened, edited, closed, opened again, left open by a failed call or abandoned by a deleted sheet, in any order; any of these could leave text in the archive that no program can read.", "anchors": ["rs/src/files/xml/xml_serialize.rs::xml_element_parser", "rs/src/files/xml/xml_deserialize.rs::generate_xml_element", "rs/src/files/office_document.rs::get_xml_tree_mut", "rs/src/files/office_document.rs::close_xml_document", "rs/src/spreadsheet/spreadsheet_2007/parts/worksheet.rs::deserialize_sheet_data", "rs/src/spreadsheet/spreadsheet_2007/parts/worksheet.rs::close_document", "rs/src/spreadsheet/spreadsheet_2007/parts/worksheet.rs::delete_sheet_mut", "rs/src/global/global_2007/parts/relations.rs::close_document", "rs/src/spreadsheet/spreadsheet_2007/excel.rs::save_as"]}
{"id": "C115", "title": "The list of content types stays well-formed XML", "statement": "Open a workbook other programs wrote whose part names XML can hold, do anything with it, giving only texts XML can hold, save: the saved file has a list of content types and it is well-formed XML, so that every part of the saved file, this list included, is what it was or well-formed.", "quantifier": "all workbook files, all sessions whatever calls fail, all texts given, all orders of the set of extensions, both build profiles", "why_tests_cant": "The list is rebuilt from part names and types that come from the opened file, from relationship targets in it and from templates; one name or type with a raw character makes the whole file unreadable, for some file and some session.", "anchors": ["rs/src/global/global_2007/parts/content_types.rs::create_xml_file", "rs/src/global/global_2007/parts/content_types.rs::get_extensions", "rs/src/global/global_2007/parts/content_types.rs::get_override_content_type", "rs/src/files/office_document.rs::save_database_into_archive", "rs/src/files/office_document.rs::load_archive_into_database", "rs/src/spreadsheet/spreadsheet_2007/parts/worksheet.rs::get_sheet_file_name", "rs/src/spreadsheet/spreadsheet_2007/excel.rs::save_as"]}
