# Formal model of openxml-office (Rust) in Lean 4

Source under study: `/repo` (read as text, never built or run). Model and proofs: `/verif/lean/Verif`.
Properties: `properties.jsonl`. What is claimed for each: `MANIFEST.json`. Wrong programs tried against the theorems: `seeded/LOG.jsonl`.

## 1. Shape of the model

The model follows the code function by function. Every definition carries a comment with the file and
the lines it models. Conventions:

* `&mut self` methods are functions that return the new state; `Result`/`Option` stay data (`Except Err`, `Option`).
* A Rust panic (`unwrap` on `None`, index out of range, integer overflow in a checked build, `HashMap` index of
  a missing key, slicing inside a character) is the explicit error value `Err.panic`; an `anyhow!` error is `Err.fail`. Texts of errors are
  not part of any claim.
* `Build.release` chooses between checked and wrapping integer arithmetic, and between the two ways the writer ends a document.
* `HashMap` is an association list; iteration order is the order of the list, and theorems quantify over
  all lists, hence over all iteration orders; C94 compares different orders. `BTreeMap` is a strictly sorted association list.
* `Rc<RefCell<XmlDocument>>`/`Weak`: an open document has a handle number; `upgrade` succeeds iff that handle is still open.
  `RefCell` guards are left out of these models; `Model/Borrows` has them, and C80 shows that no guard is ever refused.
* `Drop` (`flush` of parts) is an explicit step in the session models: dropping a worksheet handle, saving, dropping the workbook.
* Loops are structural recursion or recursion with explicit fuel; where fuel is used a theorem shows it suffices (C07).
* Unicode tables above ASCII (`is_alphabetic`, `to_uppercase`), the time stamp written by release builds, the current time, the hash function
  and the printing of `f32` are parameters; theorems hold for every choice, or name what they need (`StampOk`, `PrintsF32`, no collisions).
  One session uses one stamp (the code reads the clock per part; the stamp only appears in a comment).

Layers (bottom up):

| layer | Rust | model | properties |
|---|---|---|---|
| conversions | `utils/converters.rs` | `Model/Converters` | C01-C05, C61 |
| XML arena and edits | `files/xml/xml_tree.rs` | `Model/XmlArena`, `Model/XmlEdits` | C11-C13, C71 |
| abstract XML trees | – | `Model/Node`, `Model/DocOps` | C71 (refinement) |
| parts as arena programs | the loading and saving loops of every part | `Model/PartArena` | C78 (refinement) |
| XML writer | `files/xml/xml_deserialize.rs` | `Model/XmlWriter` | C06-C10, C102-C108, C112-C115 |
| quick-xml 0.37 lexer (external crate, the subset used) | – | `Model/QuickXml` | C68, C69, C109, C110 |
| XML reader | `files/xml/xml_serialize.rs` | `Model/XmlReader` | C08-C10, C14, C68, C69, C109, C110 |
| package | `files/office_document.rs`, `content_types.rs`, `xml_parts.rs` | `Model/Package`, `Model/Content` | C15-C20, C93, C94 |
| relationships, core properties | `relations.rs`, `core_properties.rs`, `theme.rs` | `Model/Relations`, `Model/CoreProps` | C21-C23, C57, C70 |
| shared strings, calc chain | `share_string.rs`, `calculation_chain.rs` | `Model/ShareString` | C24-C26, C59 |
| styles | `services/style.rs`, `models/style.rs` | `Model/Style`, `Model/Floats` | C51-C56, C62-C64, C72, C73 |
| worksheet | `parts/worksheet.rs`, `models/worksheet.rs` | `Model/Worksheet` | C27-C37, C61, C89-C92 |
| workbook, Excel, sessions | `parts/workbook.rs`, `excel.rs`, `common_service.rs` | `Model/Workbook` | C38-C50, C65, C81-C88, C96-C101, C104-C108, C111-C115 |
| Word, PowerPoint | `word.rs`, `power_point.rs` | `Model/OfficeDoc` | C60, C66 |
| C interface | `rs_ffi/src` | `Model/Ffi` | C58, C67, C74 |
| `RefCell` guards | every function that takes one | `Model/Borrows` | C80 |
| .NET classes | `cs/openxml_office` (`Excel.cs`, `Word.cs`, `PowerPoint.cs`, `StatusCode.cs`) | `Model/DotNet` | C75, C76, C79 |

The arena layer is literal (ids, parent pointers, child lists). The parts above it work on document values (`XDoc`: namespace map and tree).
What connects the two:

* `C11`: every reachable arena is a tree, so `toXDoc` is defined; `C07`: what the writer emits is the rendering of `toXDoc`;
  `C08`/`C69`: reading yields an arena whose `toXDoc` is known.
* `C71`: every arena edit acts on `toXDoc` as the corresponding tree edit, at every path; `C71_model_*` state this for the operations of
  `Model/DocOps.lean` that the part models use.
* `C78`: each part's loading and saving function is also written out call by call over the arena (`Model/PartArena`: pops, drains of detached
  elements, appends, attributes, orderings). For every reachable arena the result, the content left behind and the file written afterwards are
  those of the tree-level model. So theorems about parts hold for the arena programs too.

The XML templates of new parts are values in the model; `Props/Templates.lean` and `Props/StyleTemplate.lean` check them against the text of the
bundled files by running the model's reader on that text. The theme template is an arbitrary parameter.

## 2. Specifications

`Verif/Spec` holds what theorems are stated against, separately from the model: base-26 values (`Columns`), rendering (`Render`), tree shape
(`Tree`), what a reload keeps (`Reload`), XML source text and the tree it stands for (`Source`, written from the XML recommendation; of document types the extent only), the grammar of XML 1.0 and what a reader by the standard finds (`WellFormed`),
tree edits by path (`TreeEdits`), target resolution by path segments (`Targets`), and per part the notion of histories, sessions, looks
and so on. Theorem files are in `Verif/Props`, lemmas in `Verif/Proofs`. Theorems carry the id of the property. Next to each is an
`example` meeting its hypotheses.

Naming: `Cnn_name` holds in full; `Cnn_violated...` is a proved refutation of the property as stated (the property is false of the code);
`Cnn_partial...` is what holds instead, at the largest scope found. When a property is refuted the code and the property disagree, and the
manifest says partial; the refutations are listed in section 4.

## 3. Plan per property

| id | how |
|---|---|
| C01-C04 | Arithmetic model with explicit 16-bit overflow; induction on the digit list; independent spec: base-26 value of a letter string. |
| C05 | False as stated: digits are collected from anywhere. Negation by witness, plus the part that holds. |
| C06 | Escape/unescape on character lists, induction. |
| C07 | Arena invariant + simulation of the iterative writer by recursive rendering; step counting. |
| C08 | Lexer as a character state machine; lemma "run of a rendered tree"; reader builds the arena. |
| C09, C10, C14 | False in general (attributes not unescaped, text trimmed and mixed content dropped, nested declarations hoisted): witness + exact characterisation of what survives. |
| C11, C13 | Invariant by induction over edit histories. |
| C12 | Stable insertion sort: permutation, order, stability. |
| C15-C18, C20 | Package state machine, induction over histories; C18 and C20 have counterexamples. |
| C19 | Disk model with crash points; serialisation errors precede disk effects; crash window is a counterexample. |
| C21-C23 | Relationship list, induction over histories; round trip through the XML tree. |
| C24-C26, C59 | Tables, induction over histories; round trips; counterexamples. |
| C27-C31, C61 | Sheet as sorted maps refined to a function from coordinates to cells; induction over histories. |
| C32-C37 | Tree-level save/load round trips composed with the text round trip; several have counterexamples. |
| C38-C50, C65, C81-C88, C96-C101 | Whole-workbook state machine (sheets, handles, package, relationships), induction over histories of calls; invariants `SheetsInv`, `BookInv`, `Linked`, `Wrote`; many counterexamples. |
| C51-C56, C62-C64 | Style tables with an arbitrary hash function; absence of collisions is a hypothesis where needed. The look-up cache of the code is not used by it and not modelled. |
| C57, C60, C66 | Core properties on trees; Word and PowerPoint share one model. |
| C58, C67 | C interface over the workbook model: null checks, statuses, style conversion. |
| C68, C69 | Grammar of source texts as data, references and white space as in the recommendation (`Spec/SourceText`); induction on it through the lexer and the reader. |
| C70 | Paths as segments; first occurrence of `_rels`. |
| C71 | Frame lemma on the arena (different children share nothing below them), then induction on the path. |
| C78 | Loading: draining a detached subtree reads its erasure (`Reads`); saving: programs that act on one element (`Does`, `Runs`), composed. |
| C72, C73 | Children of the saved root computed exactly; index bounds as an invariant of style requests, for every hash. |
| C74 | C programs refine histories (C58) and never drop a handle; then C45. |
| C77 | The stable sort by the library's table (C12) agrees with the schema on the tags of the schema; filters by tag show nothing is lost. |
| C79 | Follow the error text from `answer` through `processStatus`. |
| C80 | Functions as guard programs with open control flow; soundness of a nesting check by induction on runs. |
| C81 | What opening does to every part of a file (`BookOpen`), an invariant for untouched parts over all calls, exact content of the saved package (`saved_all`). |
| C82, C84 | The own parts stay open with the document opened (`Still`); what is written is rendered, read back and loaded (`Tidy` files); tables only grow (`StylesGrow`, prefix); views and styles fit their Rust types after any history. |
| C83 | Exactly what opening needs (`Openable`, `start_opens`); the first relationship of each kind keeps leading to its part through every history (`Leads`, `Orderly`). |
| C85 | The part of the sheet is quiet before and after, held by one handle in between (`Editing`); the sheet data is the loaded data with the edits applied (`Edits`); then C32-C37 on the one save. Columns: what edits leave of each range are the maximal runs of columns never set (`Pieces`, by induction over the edits); the rest of the ranges are those the edits made. |
| C47, C86 | Also the relationship part is followed (`Holding` while the handle is kept, `Orphan` when it is left open); what opening a sheet needs (`openAt_ready`); composed with C83 for the saved file. |
| C89-C91 | What elements say is specified on the XML (`Spec/SheetXml`); loading and saving one sheet relate it to the stored data; composed with C85. |
| C92 | The part of a refused sheet stays open without handle (`Orphan`) and is saved as reading left it (`Thinned`). |
| C93 | Every function of reading, loading and saving returns no panic except from named causes, followed bottom-up (`calm_*`, `crash_*`); for histories an invariant (`SheetsInFolders`); saving: no step before the core properties touches them (`Gentle`). |
| C94 | A relation "same up to the order of hash maps" on trees, documents, packages and sessions (`Spec/Order`); every loader, saver and package operation preserves it (`*_same`); runs may reshuffle before each call (`ProgramRuns`), induction on runs. |
| C95 | `LooksAs` of the id is kept by every later call (tables only grow), what saving does to a look is a function of the setting (`looksAs_reload`); the cell comes from C45 and C85, the style part from the saved parts (`saved_new_styles`, C82). |
| C96 | What a drop does to each part is a function of that part alone (`dropSheet_get`: `dropAfter`), the identity on parts of other handles; two drops commute part by part, any permutation by induction. Later calls and the file through C94. |
| C97 | Each own part of a saved file is a document the library wrote (`SavedOwn`); loading and saving such a document is the identity on what it reads as, part by part (`settled_*`), because reading back is idempotent on plain documents (`reload_fix`) and the nodes written for reloaded data are the escaped nodes (`esc_*`); the hypotheses hold again afterwards (`again_step`), induction on the number of times. |
| C98 | The invariant `LiveSess` (names of open parts, which handle owns which) of C81-C88 holds for all histories; the statements are read off it. |
| C99 | Outcomes of opening (`OpenCase`) for a name not listed; the bound `Within` (no part number above the number of listed sheets) by induction over histories without deletions. Opened workbooks: when a relationship part can be opened (`relNew_iff`), any directory. |
| C100, C101 | C100: adding succeeds for every new name (C99), the saved list is C44; which names can be listed by induction over histories. C101: one symbolic write followed through saving and loading by C45; cells that were not written are absent. |
| C102, C103 | The grammar of XML 1.0 as inductive predicates over characters (`Spec/WellFormed`); the writer's text is derived in it by recursion on the tree (`document_write`), with the items a reader finds. The grammar is shown to be unambiguous (`Proofs/Unambiguous`: names, attributes, pieces of content and the declaration can each be split off in one way), so this is what every reader finds. Every character of a well-formed document is an XML character, so a bad one anywhere refutes it. C103: a text written by the library has no character references, so no reading yields a carriage return (`isDocument_calm`). |
| C104 | Texts handed over in a call (`Spec/GivenTexts`); invariant over histories: every text the session holds, and every open or closed sheet document, has XML characters only (`Proofs/FileSession`), kept by each call; each document written by the library is well-formed then (`DocX`, `Proofs/FileTexts`, `FileClean`, `FileParts`). Violations: the string table only grows. |
| C105 | Cells and values of a part by the file format, from XML items (`Spec/Elsewhere`, no library definitions); every reader finds the tree that was written (C102), so the cells found are the cells of the sheet in memory in order (`cells_seen`), one per reference (`cells_at`), strings by number (`strings_seen`); what is in memory is what was last written (invariant of C45). Part read once or read and written again when the sheet was asked for in vain (`seenOf`). |
| C106 | Opening a package by the standards (`Spec/Navigate`: root relationships, content types, prefixes, paths; no library definitions). Each part of the saved file reads as one item (C102, C105), so lists of relationships, overrides and sheets are computed from the session (`rels_read`, `types_read`, `book_read`) and `FileOf.opens`, `FileOf.finds`, `FileOf.strings` say exactly what is found. Names followed through histories (`named_run`, on the links of C44). |
| C107 | Styles as the file format defines them (`Spec/SeenStyles`: entries by position, defaults of the format; names of lines and alignments spelled out). A request leaves exactly its records in the tables (`hasLook_request`), tables only grow, and each record reads as what it says (`font_read`, `fill_read`, `border_read`, `align_read`, `xf_ids`, on C102). `FileOf.styles` finds the part; C106 finds the cell. |
| C108 | Rows and columns as the file format defines them (`Spec/SeenRows`: a height counts if marked as set, a style if marked as used). `Told`/`ran_tells`: whatever every call leaves true of a sheet holds of the sheets of all handles in a session; used for which rows exist, their properties, and the columns. `row_read` and `rows_seen` read the row elements (on C102), `finds_dropped` (C106) finds the sheet. |
| C69 (grammar), C109 | The independent grammar of C102 (`Spec/WellFormed`) against the lexer and reader: `reads_document`, by induction on the grammar, carries the reader's stack through every content production (`Spec/Foreign`). `sheet_read`/`sheet_held`: what `Sheet.load` makes of elements read that way is what `seenCells` says of the text (`Spec/ForeignSheet`); C89 carries it to the saved file. |
| C110 | `reads_document` (C69_grammar) for the strings part, then `strings_read`: one string item after the other, `loadStrings` takes the first child of each (`Spec/ForeignStrings`). |
| C111 | `reads_document` and `sheet_held` (C109) on the way in, `edited_text` (the text C85 is about) in between, `saved_cells` and `saved_sst` on the way out: the written text derives exactly one document (`document_unique`), whose cells are those of the sheet held (`cells_at`). `same_saved` joins the two ends (`Spec/ForeignSaved`). That the saved text is well formed comes from whoever reads it (`not_wellFormed`). |
| C112 | `document_x` (texts and attribute values of a derived document are XML characters, by induction on the grammar), `readAs_x` (so is everything the library keeps of it), `load_x` (so is every text of the loaded sheet), `Edits.x` and `run_strings_x` (editing keeps it), `SheetX.save_doc` and `sst_doc` (so are the documents written), then `DocX.wellFormed` of C104 (`Spec/StillWellFormed`). |
| C113 | `source_deep` (a part the library starts from, template or foreign, has XML characters everywhere), `opened_x` (so has everything loaded from it: sheets, view, relationships and their directory, styles, chain), `BookX.run` (every call keeps that), `docX_relsOf`, `docX_coreOf`, `docX_bookOf`, `docX_chainOf`, `docX_stylesOf` (so have the documents written), `DocX.wellFormed` of C104. |
| C114 | Invariant `SessX` of sessions: parts in the archive are the file's or written from a document with XML characters (`Fine`), open parts and handles hold XML characters, the rest of an open sheet's document has nothing the sheet manages. `PkgX.openPart`, `.close`, `.relNew`, `.relClose`, `.closeSheet`, `.openAt`, `.deleteSheet` keep it; `reread_deep`: a part the library wrote, read again. Own parts: C113. |
| C115 | Invariant `MetaX`: name, content type and extension of every part, open or closed, are of XML characters; `metaX_load` (from the file's own list), `source_meta` (own parts), `sheetFile_x`, `sheetRelsPath_x` (paths of sheets), `MetaX.run`; then `docX_contentTypes` of C104 over what `SavedAs` says is in the archive. The rest is C114. |
| C75, C76 | .NET object with a freed flag; induction on programs; statuses mapped to exceptions. |

## 4. Where code and property disagree

Refutations are theorems (`Cnn_violated...`), so each is a checked finding about the model, with a concrete input:

* Cell references: digits are collected from anywhere in the text (C05); columns beyond 16384 are accepted, release builds wrap (C61).
* XML: attribute values are read raw and written escaped, so `&` grows at each cycle (C09, C23, C17, C60); surrounding white space is trimmed and
  only the last text of an element is kept (C10, C25, C32, C69); nested namespace declarations are hoisted to the root (C14, C69);
  truncated parts and text after the root are accepted (C68); a document whose root closes itself cannot be read back (C17, C48, C60).
* Package: two Default entries for one extension (C18); a crash during saving loses the old file (C19); an unreadable part is dropped by opening it (C20).
* Relationships: `..` in targets is kept, external targets become part names (C70).
* Shared strings: empty items shift later indices, rich text is lost (C26).
* Worksheets: empty rows widen the dimension (C30); row flags set to false come back true (C33); outline levels lost (C35); each open and close adds a
  view (C36); `sheetProtection` moves to the end (C37); column settings get lost (C34); missing `r`/`i` panics (C59).
* Workbook: hiding one sheet shows the others (C41); tab bar flag inverted (C42); active sheet never saved (C43); a default name can repeat
  (C39); deleting leaves the part (C46); no sheet can be opened again and no saved file read back (C47, C48); a failed add leaves
  the sheet listed (C49, C38); a handle open while saving spoils its part (C45). The failed sheet leads to the part that is
  open, so two names show one sheet; a sheet renamed and deleted stays listed and takes over the part of the next new sheet; in an opened workbook a new sheet takes over relationships left behind by another program, or cannot be added if they cannot be read (C99).
* Any text is accepted as the name of a sheet (C100), any row of 32 bits and column of 16 bits as the place of a cell (C101).
* Existing workbooks: sheets are renumbered, so calculation chain entries point nowhere, and very hidden sheets become visible (C82); a file without strings
  or formulas cannot be opened again after saving, in particular no file without a calculation chain, whatever is done with it (C83); a sheet without relationships cannot be opened a second time, nor in the saved file (C47, C86); rich text strings become empty by opening and saving and an empty string item shifts all texts behind it (C84);
  the part of a deleted sheet stays, and its relationship if relative (C87); a file whose styles part is empty opens but cannot be saved (C88).
* Sheets of other programs, by opening and closing them: shared and array formulas lose their kind and range, dates become numbers, rich inline texts empty (C89);
  rows hidden with `true` become visible, column outlines vanish (C90); frozen panes and selections vanish (C91). A sheet that cannot be read, for instance because a row has no number, loses its rows by the attempt (C92).
* Six kinds of damage crash the program instead of being reported: an `Override` without `ContentType`; core properties without a root element (crash on save, and on open if opening fails
  later); the workbook part outside any folder; a folder whose name has a character outside ASCII directly before `_rels`; a calculation chain entry without `r` or `i`; a sheet outside any folder (C93).
* Which of two default types of an extension survives reopening, and which of `xmlns` and another attribute whose name starts with `xmlns` becomes the default namespace, depends on the order of a hash map (C94).
* A cell given an italic or underlined style is neither in the saved file (C95, through C55).
* Styles: number formats not applied (C54), patterns not settable (C62), 16-bit ids (C51, C53), italics lost (C55), `strike` refuses loading (C63).
* Opening and saving an existing workbook turns the flag for showing sheet tabs around, every time (C97).
* In an opened sheet, setting a column inside a range of columns resets the columns to its right in the range (C34, C85).
* Characters XML does not allow are written as they are, so one such character in a cell or name makes the part no XML (C102); a cell's bad text stays in the shared strings even if it is overwritten or its sheet deleted, so no later file is XML in all parts (C104); carriage returns in texts, and tabs and line ends in attributes, are read differently by other programs (C103).
* The words nan, inf and infinity (any case, with sign) written without a type become number cells other programs reject (C105); sheets still open when saving have no cells at all for other programs (C105); the formula of an inline string is not written (C105). Shared strings are written without `xml:space="preserve"`, so programs that follow Excel may drop white space around texts; the claims read texts as XML gives them.
* Tabs and line breaks in sheet names are written as they are; other programs read them as spaces and find no sheet under the name the library reports (C106). A sheet renamed and then deleted through its handle stays listed for other programs too, with an id no relationship has (C106).
* Other programs see italics and underlining although the library's own reader drops them (C95); but every standard number format asked for is General in the file, for every program (C107, as C54 for the library itself).
* In other programs a row given `hidden: Some(false)` is hidden, and so for the other switches of rows; column widths, hiding and styles set in sheets of new workbooks are in no file (C108, as C33 and C34 for the library itself).
* A cell value another program wrote in a CDATA section, and an inline string written in runs, are lost on opening (C109).
* A shared string in runs becomes an empty string on opening; a string item with nothing in it is skipped, so that every later number leads to the wrong string; white space around strings is lost (C110).
* Core properties: time elements are only updated when present with the expected prefix (C57).
* New Word and PowerPoint files have no main document (C66).
* C interface: renaming always reports success, Word and PowerPoint saving errors reported as success (C58); bold also sets italic and underline (C67);
  sheets opened from C or .NET are saved unreadable because nothing closes them (C74).
* .NET: an object saved once is freed, any further use is undefined (C75); `RenameSheet` always returns true (C76).

## 5. Trusted base

* The Lean 4.33.0 kernel. The tactic `kernel_rfl` (`Proofs/KernelRfl.lean`) only builds `Eq.refl` proofs that the kernel checks.
* Axioms. No own axioms, no `sorry`, no `native_decide`, no `bv_decide`; no Mathlib module is imported. Theorems listed in the manifest depend on
  `propext`, `Classical.choice`, `Quot.sound` at most:
  * none: `C34_violated`, `C34_violated_range`, `C53_flag`, `C53_final`, `C56_enumerations`, `C56_distinct`, `C57_violated`, `C67_violated`, `C67_violated_lost`, `C67_partial`, `C67_violated_size`.
  * `propext`: `C26_violated`, `C34_never`, `C34_cut`, `C35_partial_same`, `C37_violated`, `C51_length`, `C51_clashFree`, `C53_length`, `C53_font`, `C53_inject`, `C55_italic_fit`, `C69_white`.
  * `Quot.sound`, `propext`: `C03_zero_rejected`, `C12_order_child_document`, `C18_partial`, `C27_sheet_sorted`, `C42_last_value`, `C51_push`, `C53_find_one`, `C53_find_new`, `C53_requested`, `C53_first`, `C53_second`, `C53_violated`, `C54_violated_custom`, `C59_load_partial`, `C69_trim`, `C71_model_after`, `C80_no_conflict`, `C80_between`.
  * `Classical.choice`, `Quot.sound`, `propext`: all other theorems of the manifest (386).
* The correspondence between the Rust text and the Lean definitions (by reading; cited line by line).
* Behaviour of external crates as modelled: quick-xml 0.37 lexing/escaping for the subset in `Model/QuickXml.lean` (with the refusal of
  declarations of reserved prefixes and namespaces by `NsReader`; unbound prefixes are not reported by the calls the library uses); `zip` and gzip as loss-free containers (compression and decompression of a part
  are inverse); Rust `std` parsing/formatting of integers; the grammar of `f64::from_str`; `CStr`/`CString`; FlatBuffers decoding as an arbitrary function of the buffer.

Not modelled: contents that are not UTF-8 text (parts are lists of characters; a byte order mark at the start is removed as by quick-xml), compression, time formatting, logging macros, memory exhaustion, file names and permissions beyond the disk model
of C19, functions with empty bodies (`set_active_cell_mut`, `set_merge_cell_mut`, `list_merge_cell_`, `remove_merge_cell_mut`), getters
of `xml_tree.rs` that only return a field, the bindings in `go`, `java`, `python`, `ts` (stubs), and `rs_api`. Of the .NET classes the FlatBuffers
encoding of the properties is not modelled (the buffer is taken to be valid), nor that `int` is passed where the library expects `usize`.

Simplifications to keep in mind when reading the model:

* Part names are arbitrary strings; the package layer does not normalise them (neither does the code).
* `WorkSheet::close_document` is modelled as atomic: the tree-level model has no document to show for a failed write. `C78_sheet_atomic`
  proves that the arena program fails, if at all, in its first step, before the document is touched.
* `f32` values are kept as the text `f32::to_string` prints (`show32`); `PrintsF32` says that text parses back.
* The C interface model has no memory: a panic ends the process, results belong to the caller. The conversion of the left border type is taken
  to be the same as for the other borders.
