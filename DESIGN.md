# Design of the formal model of jacquetc/text-document

Everything below refers to the sources in `/repo` at the pinned commit.  The
model is written in Lean 4 (`lean/Verif/`), one group of files per area:

* `Verif/Model/*.lean`  – the model: definitions transcribed function by
  function from the Rust code, each with a comment citing file and lines.
* `Verif/Spec/*.lean`   – small independent specifications (what the English
  property talks about: "format of byte i", "paragraphs joined by newlines",
  "every cell covered exactly once", ...).  No model helper is used in them.
* `Verif/Lemmas/*.lean` – helper lemmas.
* `Verif/Props/*.lean`  – the property theorems, named `C<nn>_...`, and beside
  each an `example` showing that a concrete, non-trivial state meets its
  hypotheses.

## Trusted base

* Lean's kernel (4.33.0).  Theorems depend at most on the three standard axioms
  `propext`, `Classical.choice`, `Quot.sound`; `Verif/Audit.lean` prints the
  axioms of every property theorem at build time.  No own axioms, no `sorry`,
  no `native_decide`, no `bv_decide`.
* The transcription from Rust to Lean (read by hand; the code was not run).
* Modelling conventions:
  * `u32`/`usize`/`i64` become `Nat`/`Int`; overflow at 2^32 bytes or 2^63
    characters is not modelled (documents of 4 GiB).  Subtractions that panic on
    underflow in the code are modelled as `none` / error values.
  * `ropey::Rope` is a `List Char`; byte offsets are sums of `Char.utf8Size`;
    slicing at a byte offset inside a character is an explicit failure (`none`),
    as `byte_slice` panics there; `byte_to_char` rounds down, as in ropey, and
    panics (`none`) past the end.
  * `im::HashMap` tables are functions `Id → Option α` or association lists;
    locks and `Arc` are not modelled (each public call runs under one mutex,
    `TextDocumentInner`), so a call is one atomic step.
  * time stamps (`created_at`, `updated_at`) are not modelled.

What is modelled and what is not is listed per area at the end of this file.

## Properties

| id | modelled | proof idea |
|----|----------|------------|
| C01 | `format_runs.rs` tables as `List Run`, generic in the format type | invariant by induction over operations |
| C02 | `splice_range`, `capture_runs_in_range`, `build_replacement_runs`, `merge_dto` | pointwise semantics "format at byte i"; refinement |
| C03 | `shift_runs_for_insert`, `shift_images_for_insert` | pointwise semantics |
| C04 | `shift_runs_for_delete`, `shift_images_for_delete` | pointwise semantics |
| C05 | `split_runs_at`, `split_images_at`, merge code in `delete_text_uc` | canonical form: well-formed tables with equal pointwise semantics are equal |
| C06 | `execute_set_text_format`, `apply_inverse` | capture + splice round trip; images: see disagreements |
| C07 | `inline_segments_view`, `build_fragments` | induction over spans/images |
| C08 | `logical_offset_to_byte` | induction over characters |
| C09 | `BlockOffsetIndex` with its caches | invariant by induction over operations |
| C10 | `marker_at_byte` etc. | refinement of the binary search by "last entry with start ≤ byte" |
| C11–C13 | `rope_helpers.rs` over rope + index | refinement to a list of (marker, content) |
| C14, C15 | `rope_flat_text_if_simple`, `find_block_at_char_position` | refinement |
| C16–C20 | use cases on a document state (blocks, formats, images, counts, rope) | refinement to plain text |
| C21–C25 | `UndoRedoManager` with abstract commands acting on an abstract state | induction over histories |
| C26 | `can_merge` / `merge` of insert and delete | case analysis + C16/C17 |
| C27, C28 | `RopeStore`, `Transaction` | state machine, induction over steps |
| C29, C30 | `EventBuffer`, queue with two read cursors | state machine with ghost history |
| C31 | `adjust_offset` | arithmetic |
| C32, C33 | `compute_text_edit`, `check_flow_changed` | list prefix/suffix lemmas |
| C34, C35 | search helpers, find next and previous | list lemmas |
| C36 | `replace_text` over the store | each match rewrites its paragraph; matches last-first = one scan from the left |
| C37 | import / export plain text | list lemmas |
| C38 | cells as rectangles; six table operations | pointwise cover count |
| C39 | `expand_for_spans` | termination measure + least fixed point |
| C40 | `format_list_marker`, `to_roman_upper` | evaluation function is a left inverse |
| C41 | `synth_element_id` | bit arithmetic |
| C42, C43 | highlight merge, re-highlight | pointwise semantics; cascade invariant |
| C44 | `ListGrouper` | refinement to history-based specification |
| C45 | escape functions | left inverse |
| C46 | `LongOperationManager` as a transition system | invariant over schedules |
| C47 | counts in C16–C18 | invariant over histories |
| C48 | `get_text_at_position`, `get_block_at_position` | refinement to paragraphs and positions |
| C49 | `set_text_format`, `merge_text_format` over a document | refinement to paragraphs of styled characters |
| C50 | `set_block_format` | refinement to paragraphs with formats |
| C51 | API formats and their conversions | round trip field by field |
| C52 | all cursor calls on a document with its cursors and undo manager | invariant over histories |
| C53–C55 | movement with segmentation as a parameter | refinement to places, paragraphs and words |
| C56 | `selected_text`, `char_format`, `block_format` | refinement to styled paragraphs |
| C57 | the list commands, `TextList` | refinement to styled paragraphs; invariant over histories |
| C58 | `insert_formatted_text` | refinement to styled paragraphs |
| C59 | HTML export | an HTML reader (tokens, elements, marks, styles) reads the page back |
| C60 | `insert_frame` and its undo | reading order, what stays; two concrete counterexamples |
| C61 | `get_document_stats` | words of the plain text counted by their starts |
| C62 | `insert_image` and its undo | refinement to paragraphs with an object character |
| C63 | `extract_fragment` on the store; `pieces` is what a selection takes of each paragraph | segment slices by induction over segments; paragraphs by induction; sorted blocks are the paragraphs in order |
| C64 | `insert_fragment` on the store; `PastedMany` says what became of each paragraph of the fragment | each path is a chain of store updates; frame invariant `Adding` kept by every step, by induction over the pasted paragraphs |
| C65 | composition of `extract_fragment` and `insert_fragment` on the store | C63 describes the fragment, C64 what becomes of it; the pieces of the selection spell the selected text |
| C66 | block handles, flow and snapshots read from the store, positions refreshed from the text; `SnapShows` says what a snapshot has to show | the refreshed blocks sorted are `placed 0 ps`; the walk over the frame's order keeps `position = paraStart` |
| C67 | all eight table commands on the whole store, with the entity operations on tables and cells; `Tabled s d f items` says what it means for a store to show a list of paragraphs and tables | `Tabled.catchUp` (stored positions brought up to date), `Tabled.place_top` (where the table goes), `Tabled.build` (cells, frames, positions and text after creation) |
| C68 | `insertSimple` on stores with tables, the predicate `Tabled` | `Tabled.flowIds` (reading order through tables), `Tabled.locateSimple`, `Tabled.on` (transport when paragraph contents change), `Tabled.insertSimple` |
| C69 | `insertBlock` and `deleteText` on stores with tables (not the branch of `execute_delete` that clears several cells) | `Tabled.ownerFrame_top`, `Carries.broken`, `placed_broken`, `Tabled.insertBlock_top`; for deletion `Carries.touches`, `Carries.cut`, `Tabled.deleteInside`; the failures by evaluation of the model on one document |
| C70 | the calls of C52–C56 on stores with tables | every proof of C52–C56 is about `Reads` (a document readable by position); `Tabled.reads` shows that documents with tables are |
| C71 | `keepOutside`, `tableBoundary`, `tableCellOf` | `Tabled.tableCellOf_cell/_top`, `edge_after/edge_before`, `Tabled.split_unique` |
| C72 | `blockSnap`, `snapOrder`, `snapCells`, `tableSnapshot`, `cellBlocks`, `cellAtPlace` on stores with tables | every proof of C66 is about `Visible`; `Tabled.visible`, `Tabled.home`, `Tabled.cellBlocks`, `Tabled.walk` |
| C73 | `setTableFormat`, `setCellFormat`, `setFrameFormat`, the format readers and conversions | `Tabled.dress`: a change of formats alone keeps the document; the conversions i32→i64→i32 are exact |
| C74 | `selectionKind`, `findTableBetween`, `cellsInRange`, `selectCellRange`, `mergeSelectedCells` and the calls on the current table | the closure of C39 over the spans that C72 reads off; `OutOfTables` positions separate the tables |
| C75 | `importElements` with its loop over elements, cells and block quotes, `Session.setElements` | an invariant of the store during the loop (`Mid`), kept by every element; the tree of frames by a second one (`Built`) for documents without block quotes |
| C76 | `MdSt.step`, `parseMarkdown` over events; `MdBlock.events`, `blockElements` over trees | mutual induction over the tree with the state between blocks (`Idle`, and `Weak` when text of a tight item waits); then C75 |
| C77 | `walkNode`, `collectNodes`, `rowsNodes`, `parseHtml` over trees; `nodesTexts` (all trees), `HBl.elements` (grammar) | mutual induction over the tree, carrying the recursion depth; texts as a permutation; then C75 |
| C78 | `exportLatex` and its parts; a tokenizer and a reader of LaTeX (`texTokens`, `TexReader`, `readTex`) | every piece of text written has fixed tokens whatever follows (`TTok`) and a fixed effect on the reader (`TInl`, `TPart`, `TChunk`); induction over segments, items and blocks |
| C79 | `exportMarkdown` and its parts; a Markdown reader (`mdInline`, `mdBlocks`, `readMarkdown`) that refuses what it is not sure of | every run written is read as its marks around its characters, given the characters at its borders (`MdReads`, `segs_read`); lines are pieces of blocks whatever follows (`MdPiece`); composed with C75 and C76 |
| C80 | `Fragment` with `fromPlainText`, `ofElements`, `insertDocumentFragment`; FragsOf / TablesOf relate it to what was parsed | induction on the parsed elements, then C64 for inserting, C76 and C77 for what Markdown and HTML mean |
| C81 | `Fragment.toHtml` and its parts; the HTML reader of C66 | the paragraph lemmas of C66 (`Inl`, `Par`) for every block and run of items, by induction on the blocks; for tables (`Spec/HtmlTables.lean`) the same for cells, rows and tables |
| C82 | the six commands as in TableCommands with frames, blocks, text and index; `Arranged` is `Tabled` without the stored positions, `STable.shows` says what a place shows | the document is described by its items; one lemma replaces a table in it (`Arranged.replace`), one takes cells out (`Arranged.dropCells`), one puts cells in (`Arranged.growAll`), one takes a whole table out (`Arranged.without`, `Arranged.removeTable`); the grid part is C38 |
| C83 | `Holder` is the document with manager and resource cache, `propApi` the undo of `UpdateUndoable` and of the creation of a resource; `DocProps` and `Timeline` say what should be read | a contract of the commands (`propContract`) lifts single undos to the time line; the cache only ever holds names of resources that carry them |
| C84 | `Reader` is a session with the kept text, the flag and the imports under way | invariant over the calls: the kept text is that of the document, and none is kept during an import |
| C85 | `insertTables` models the branches of pasting that deal with fragments of tables only; `TableLike` says what it is to be the table of a fragment | each cell is filled and mirrored into the text in turn; the invariant is that of a document with one more table and the cells so far |
| C86 | `exportDocx` models the whole use case up to the calls of docx-rs; `docxColumns` reads a row as Word does, each cell beginning where the one before ends | induction over places with the covered places as the invariant; the tiling gives each place its one cell |
| C87 | `Store.removeEnts` models the eight `remove_multi` of the repositories and tables | `Goes` is the least set closed under ownership; each level is shown to forget exactly its ids, and the levels are composed |
| C88 | every use case with its stacks and snapshots, behind the undo manager of C01 | a contract per command between contents of the store; counters only grow, so the contract of the past stays valid |
| C89 | transactions with their save points, the checks of `set_relationship` | rollback gives the state before; validity is an invariant of every valid call |
| C90 | `readRel`, `setRel`, `moveRel`, `createIn`, `updateEnts` | `PutIn`, `Created` and `itself` say what is expected; one proof over the eleven fields |
| C91 | `EditCall.run`, `UndoData.undo`, `Work.step` over the models of the commands | `Fine` is kept by every primitive of the store; what a step leaves (`Leads`: counters grow, entities stay) is composed through each command; the history is a chain of stores each of which the kept data brings back (`Trail`) |
| C92 | `UndoData.undo`, `Work.step` of C91; `ropeInsertInBlock` and `ropeDeleteInBlock` on any index in order | what typing did (`TypedIn`) is kept under stores that differ in stored positions only, and two of them compose; the history is a list of stores each of which the kept data brings back (`Line`) |
| C93 | the whole of `execute_delete` with the branch for selections across cells (Model/DeleteCells.lean) | the loop over the cells by induction with the invariant `Arranged` and a text that does not end in an emptied paragraph (`clearCells_spec`), then every later step of the branch is shown to do nothing (`Tabled.deleteCells`); evaluation of documents made by the commands, for the negative part |
| C94 | `to_markdown` with its escaping, inline rendering, tables, list numbering and joining (Model/FragmentMarkdown.lean); a reader of groups of lines, pipe tables and lines | induction over the parts: each part is read alone; the reader splits at blank lines; tables by an induction over bars; the order by the stable sort; back again by C76_parse and C80_elements |
| C95 | the command from the parsed blocks on, with list grouping, the current paragraph, new paragraphs, tail, text and positions (Model/InsertMarkup.lean) | refinement to paragraphs: the head by `Adding.set`, the new paragraphs by induction over the blocks, the text by induction over its insertions |
| C96 | the command from the parsed blocks on (Model/InsertMarkup.lean, shared with C95) | as C95, with the branches that overwrite the paragraph and skip the tail |
| C97 | the whole command for paragraphs mixed with tables (Model/PasteMixed.lean): order of items, head, loop over paragraphs and tables with the running position and the place in the text, tail, order of the frame, positions, counts | undo from the snapshot; refinement to items by induction over them |
| C98 | the commands of C49 and C50 on the items of C67-C69 (Spec/Tables.lean) | the loop over the blocks of all frames changes each paragraph by its stored position; induction over the blocks; the result read in order is that of C49 and C50 |
| C99 | the commands of C57 on the items of C67-C69 (Spec/Tables.lean, Spec/ListCommands.lean) | the loop of create_list over the blocks of the main frame by induction; removal of an unused list from all owners; items by sorting refreshed positions |
| C100 | the functions of C34-C36 on the items of C67-C69 (Spec/Tables.lean) | a document without tables with the same paragraphs is built; replace gives the same on both, because only the blocks in reading order are read and written; then C36 |
| C101 | the calls of C67, C68, C69, C73, C98, C100 on the items of Spec/Tables.lean; what each is meant to do in Spec/TableHistory.lean | one call by the theorem on it, counts by cases, then induction over the list of calls |
| C102 | exportHtml on Arranged documents, read by the page reader of Spec/HtmlTables.lean; the table expected in Spec/DocHtml.lean | the loop over the places by the invariant of covered places (shared with C86), cells and rows by running the reader, the frame by induction over its items |
| C103 | exportPlainText on Tabled documents | the sorted blocks of the main frame and of each cell frame (shared with C86), induction over the frames of the document, a permutation of the cells by their frames |
| C104 | extractFragment on Tabled documents | the blocks below all frames are a permutation of the paragraphs and, once more, of those in cells; sorting by position; induction over the paragraphs |
| C105 | copyFragment on Tabled documents | an invariant of the loop over the blocks: which tables are done; induction over the items of the document |
| C106 | copyFragment then insertTables, on two Tabled documents | C105 and C85 put together |
| C107 | importPlainText on any store | what removing frames, making one and adding lines do to the document and the text, by induction over frames and lines |
| C108 | exportPlainText, importPlainText on flat documents | splitting the joined paragraph texts gives them back, by induction over the paragraphs |

## Where the code and the property disagree

Each line names the property, what the code does, and the theorem with the witness (suffix `_fails`)
when there is one.  The rest of the property is proved in the `_partial` theorems.

* C06: with two images at the same offset, undoing a format change gives both the format of the first.
* C07: `inline_segments_view` (the exporters' reading) repeats or misplaces text when an image lies at a
  byte covered by a formatted span (`C07_inline_segments_fails`).
* C08: images are counted twice by `logical_offset_to_byte`, so positions after an image are off.
* C12, C13: `rope_append_empty_block` on a document of one empty paragraph, `rope_replace_block_content`
  of the only, empty last paragraph, `rope_insert_block_at` at the start of the following frame,
  `rope_insert_table_anchor` after an empty last paragraph, `rope_remove_table_anchor` after an empty
  paragraph, removing the only anchor (panic), `rope_append_table_anchor` on a one-empty-paragraph
  document.
* C22: an open undo group keeps the redo history although edits were made.
* C23: `end_composite` and `clear_all` never reset the stack of the group; cancelling an inner group
  closes the outer one; deleting the stack of an open group makes `end_composite` panic.
* C24: a group whose undo fails midway stays half undone.
* C26: `can_merge` does not look at whether the *first* insertion replaced a selection: "ab", type "x"
  over "a", type "y", undo, redo gives "xyab" (`C26_type_over_fails`).
* C28: undoing a set- or move-relationship command rewinds the id counters, so ids are given out twice.
* C29: after `restore_to_savepoint` the event buffer records nothing more.
* C30: without polling, pending events are never dropped; the order of callbacks is not fixed.
* C32: the reported edit after undo or redo is wrong when paragraphs appear or disappear.
* C34: case-insensitive search reports positions in the lower-cased text
  (`C34_case_insensitive_fails`).
* C36: stored paragraph positions are stale after typing in an earlier paragraph, and the replacement
  then changes other characters (`C36_stale_positions_fails`); overlapping matches are all replaced
  (`C36_overlap_fails`).
* C38: inserting a row or column through a merged cell, and merging a range that cuts a merged cell,
  break the tiling.
* C41: element ids repeat from paragraph id 2^30 on; an image and a text fragment at the same byte
  share an id.
* C43: re-highlighting stops at the first new paragraph whose state is −1.
* C45: the Markdown exporter does not escape the back quote, `<` and `&`.
* C46: a cancelled operation that finishes is reported as completed; cancelling a finished one reports
  a cancellation; an operation that panics stays running for ever.
* C47: a new document reports no paragraph (`C47_new_document_fails`).
* C49: after typing in an earlier paragraph the stored positions lag behind and the wrong characters are
  formatted (`C49_stale_positions_fails`).
* C50: with the caret at the end of a paragraph that has text, `set_block_format` changes nothing
  (`C50_caret_at_end_fails`).
* C51: `set_char_format` drops anchors, tooltips and colours; `merge_char_format` also drops point size, weight,
  overline, spacings, underline style and vertical alignment; `set_block_format` drops tab positions; all without
  an error (`C51_set_drops_fields_fails`, `C51_merge_drops_fields_fails`, `C51_block_drops_tabs_fails`).
* C52: undo and redo do not move the cursors, `cursor_at` does not clamp, and in a document never loaded
  the end cannot be reached (`C52_undo_fails`, `C52_cursor_at_fails`, `C52_new_document_fails`).
* C54: at the end of a paragraph with text the code takes the next paragraph for the current one: end of
  block goes to the end of the next one, start of block goes forward, next block skips one
  (`C54_at_paragraph_end_fails`); previous block skips an empty paragraph after an empty one
  (`C54_empty_paragraphs_fails`).
* C55: previous word is stuck at the start of a paragraph that begins with a word; next word is stuck before a
  lone underscore; at the end of a word nothing is selected unless it is the last of the paragraph
  (`C55_previous_word_fails`, `C55_next_word_fails`, `C55_select_word_end_fails`).
* C57: `create_list` tests stale stored positions (`C57_stale_positions_fails`); `insert_list` creates a
  paragraph without registering it in the text, so that it is missing from the exported text and what is
  typed into it is lost (`C57_insert_list_fails`); `add_block_to_list` leaves an emptied list behind
  (`C57_move_leaves_empty_list_fails`).
* C58: inserting an empty formatted text leaves a span over no characters (`C58_empty_text_fails`); beyond
  the end the position returned is not the end of the text (`C58_beyond_end_fails`); format fields the
  caller left unset are stored as empty family, size 0 and `false` (`C58_format_fails`).
* C59: `to_html` writes a block's background colour into the style attribute unescaped, so a colour can break
  out of the tag (`C59_color_fails`); list items that follow each other become one list, numbered like the
  first, whatever lists they belong to (`C59_lists_merge_fails`); a code block after a list item, itself in a
  list, is exported as a plain item (`C59_code_item_fails`).  The notation of line heights (a Rust float
  printed) is a parameter, assumed to contain no quote, semicolon, ampersand or carriage return.
* C60: a frame inserted in the middle is in the reading order but not in the text: `to_plain_text` puts its
  paragraph last and text typed into it is lost though counted (`C60_not_in_text_fails`); exporters write the
  content of a nested frame twice (`C60_exported_twice_fails`).
* C61: an image alone between blanks counts as a word (`C61_image_is_a_word_fails`).
* C62: `insert_image` does not move the span table: an image inserted in the middle of a bold word makes
  `text_at` and the exporters panic (`C62_unreadable_fails`); an inserted image is read twice and deleting its
  position leaves it in the document (`C62_image_stays_fails`); an image behind the caret is not moved on (`C62_anchor_fails`).
* C63: `extract_fragment` compares the selection with stored block positions. Typing leaves the stored positions of later paragraphs behind, so copying a later paragraph then gives another text or nothing. A selection that ends with an end of paragraph loses it.
* C64: pasting several paragraphs whose first joins the text before the caret takes the text behind the caret off the character count. Pasting one formatted paragraph into the middle of a paragraph puts the caret one paragraph too far, reports one added paragraph instead of two and stores a wrong position; at the start of a paragraph the rest of the paragraph loses its format, is not counted, and later positions are wrong. Two lists that differ in what stands before or after the number become one list.
* C65: an image is copied with its object character as text and pasted as image and text, so the pasted text has one object character too many.
* C66: `find_element_at_position` returns nothing at the end of a paragraph with another one after it, and at the boundary of two runs the run after the position, where the documentation says the one before. The snapshot of a frame has positions counted from the frame's start, the flow snapshot from the document's start.
* C67: with the caret in the empty last cell of a table, `insert_table` puts the marker of the new table in front of the wrong entry of the text index; afterwards the blocks of the new cell and the paragraph after it cannot be read (`block_content` panics).
* C68: undo of typed text in a document with a table leaves the stored positions of the later paragraphs moved; the next paragraph break or table command behind it goes to the wrong place.
* C69: `insert_block` in a table cell puts the second half into the main frame at the end of the document; `delete_text` recomputes stored positions without counting table cells, so behind a table it deletes elsewhere or nothing, and spoils the positions for later commands.
* C71: extending a selection that started inside a table to a position above it puts the cursor below the table, and the other way round: `set_position` asks `table_boundary_position` for the wrong side when the anchor is in the table.
* C73: `set_frame_format` accepts a `position` and drops it: `FrameFormat::to_set_dto` does not pass it on.
* C74: `merge_selected_cells` looks the anchor up without the fallback for the end of a paragraph that `current_table_cell` has: with the anchor at the end of the text of a cell it takes the next cell, so that a selection of two cells merges one cell with itself.
* C75: `set_markdown` and `set_html` say "Clears undo history" but do not: undo after loading brings back the old document, or its counts. Tables, cells and lists of the old document are not removed. If the document opens with an empty paragraph and a table, what is typed into that paragraph is lost. A table with rows of different lengths (HTML) makes later positions wrong.
* C76: In a tight list item, text followed by a heading, code block or quote is run together with it into one block; a table there comes before the text. `*a *b* c*` loses the emphasis of `c`. The second line of a heading with a forced break is not a heading. An empty list item disappears and a forced break in an item makes two items.
* C77: White space between blocks becomes an extra paragraph holding a newline, at the end of the enclosing element. A `br` inside a paragraph is lost (the code's comment says it adds a newline; it adds an empty span). Text before a block moves after it and texts around it are run together. `<li><p>a</p></li>` is not a list item. Empty items and paragraphs disappear. Captions and formats around a table are lost. Text nested deeper than 256 elements is silently dropped.
* C78: LaTeX export drops empty paragraphs, writes an item beginning with `[` so that it becomes the item's label, lets code with `\end{verbatim}` escape from its environment, writes colours unescaped, merges adjacent lists, makes one command of heading levels 4-6, uses `\RL` (and `\multirow`) without loading a package for them, and exports a quotation twice (once in its place, once as a frame of the document; HTML and Markdown export loop over the frames in the same way).
* C79: Markdown export does not escape backticks, `&` and `<`; drops empty paragraphs; writes bold text next to letters, spaces or other marked text so that the marks are not recognised (`a**\!b**`, `**a **b`, `**a*****b***`); writes link destinations unescaped; loses underlining, list letters and the list of a heading; lets code with a fence escape from its block; exports a quotation twice, the second time not as a quotation.
* C80: inserting Markdown or HTML, unlike loading it, turns code blocks and quotations into plain paragraphs; the plain text of a fragment leaves tables out, so that a fragment which is a table says it is empty.
* C81: the HTML of a fragment leaves out line height, direction, background and code blocks, drops the alignment of headings and items, and moves a table that stands between two items behind the list.
* C82: with text in a table, adding or removing rows and columns and merging leave wrong stored positions (they count one position per block), removed text still counts as characters (also after removing a whole table), and merging drops the text of all cells but the first.
* C83: two resources under the same name: add, add, undo, read, redo and then read gives the first, while without the reading in between it gives the second.
* C84: to_plain_text called while set_markdown or set_html is at work gives the old text ever after, until the next edit. Undo and loading do not reset is_modified.
* C85: pasting a table on cells leaves their text; further paragraphs of a cell are lost from view; stored positions are wrong; after an earlier table or after Enter the table goes to the wrong place.
* C86: DOCX export puts all tables behind all paragraphs, in order of creation; the rows below a cell spanning rows and columns are too short; headings in cells are lost; the grid of an inserted table has columns of width 0.
* C87: removing a frame leaves its negative entry in the child order of the parent frame; removing a paragraph through the entity commands leaves its text in the rope.
* C88: set_relationship and move_relationship can be redone once only, and their undo rewinds the id counters so that ids are given out twice; create_multi of no documents removes the document and cannot be undone; undoing the creation of a frame with existing paragraphs removes the paragraphs.
* C89: move_relationship, update_with_relationships and create accept ids of entities that do not exist.
* C91: undoing a text format after `set_markdown` or `set_html` gives format runs to a paragraph that does not exist any more.
* C92: undo of typing does not bring back the positions stored with later paragraphs when the document has tables.
* C93: deletion across cells deletes the paragraph behind the table; empties a cell that only touches the selection; removes a table from a selection inside it; leaves stored positions and, with an empty last cell, the text index wrong.
* C94: in a fragment's Markdown an image becomes escaped text; monospaced text loses links and marks; code blocks become paragraphs; underline is lost; an indented paragraph becomes code; neighbouring code runs together; a backtick or a pipe in code breaks it.
* C95, C96: inserting Markdown or HTML blocks before a single empty last paragraph takes away the last character of the paragraph; code blocks become plain; a single formatted block adds two paragraphs and reports one.
* C96: inserting HTML takes the text behind the caret off the character count when the first block joins or replaces.
* C97: pasting paragraphs and tables can corrupt the text offsets (a table right behind an empty last paragraph), drops a character before a single empty last paragraph, miscounts characters, tears lists apart and misplaces the fragment behind a table.
* C99: create_list in a cell makes an empty list; insert_list in a cell puts the item outside the table, at contradictory places
* C100: overlapping matches are not all replaced; a match across cells is found but not replaced
* C101: insert_formatted_text leaves stored positions wrong when there is a table
* C102: every table comes twice in HTML, LaTeX and Markdown export (`C102_twice_fails`); headings in cells are lost.
* C103: plain text export lists the paragraphs outside the tables first and then those in cells, so positions of find_all do not point into it
* C104: text copied inside a table cell comes twice: pasting one word gives two paragraphs with it
* C105: a list item inside a table cell loses its list when the table is copied
* C106: a heading in a table cell is no heading any more when the table is pasted
* C107: after a text is loaded over a document with tables, the document still lists and counts these tables
* C26: consecutive Backspaces are never merged into one step of undo; consecutive Deletes are
* C108: a line end typed with insert_text stays inside one paragraph (a comment in the project's tests says so, though that test types no line end), so saving as plain text and loading gives more paragraphs

Read in the code but not (yet) stated as theorems: `delete_text` subtracts the unclamped length inside
one paragraph; the undo of typing does not restore stored positions of other paragraphs in documents
with tables; an empty deletion adds a history entry.

## What is modelled

Modelled, function by function: `common/format_runs.rs`; `character_format` merging; the fragments of
`text_block.rs` and `inline_segments_view`; `rope_helpers.rs` except `walk_frame_bounds`,
`recompute_all_frame_byte_ranges` and `top_level_frame_end_byte`; the block offset index; `RopeStore`
with snapshots, save points and transactions; `UndoRedoManager`; `EventBuffer`, the event queue and its
readers; `compute_text_edit`, `check_flow_changed`, cursor adjustment; the search helpers, `find_text`,
`find_all`, `replace_text`; `insert_text`, `delete_text`, `insert_block` with their undo, redo and
merging; the public cursor calls built on them; cursor movement, selection and reading; the list commands and `TextList`; `insert_formatted_text`; HTML export; `insert_frame`; copyFragment (extract_fragment_uc.rs L139-L284: selections across table cells); find_all_uc.rs and find_text_uc.rs from the store to the result (Model/FindIn.lean); the editing commands as one catalogue with their undo, redo and merging; relationships of the entity commands; errors and validation of the entity commands; undo and redo of the entity commands; the entity layer: tables, repositories and undoable use cases of all eight entities; DOCX export up to the calls of docx-rs; pasting fragments that are tables, and fragments of paragraphs mixed with tables; the cache of the plain text, imports that finish later, and the modified flag; document properties and resources with their cache; the six commands that change a table in a whole document; the HTML of fragments (fragment.rs `to_html`); fragments from plain text, Markdown and HTML (public_api fragment.rs) and inserting them; Markdown export (export_markdown_uc.rs), including tables and nested frames; LaTeX export (export_latex_uc.rs), including tables and nested frames; walking HTML trees; reading Markdown events; loading parsed Markdown and HTML; selections of cells and the calls on the current table; formats of tables, cells and frames; handles, flow and snapshots in documents with tables, handles of tables and cells; selections across table edges; reading by position and cursor movement in documents with tables; paragraph breaks in documents with tables; typing in documents with tables; `insert_table` on the whole document; `remove_table`, row and column commands, `merge_table_cells` and `split_table_cell` on the whole store (model); block handles, the flow, block and flow snapshots, `find_element_at_position`, `blocks_in_range`; copy in one document followed by paste in another; `insert_fragment` for text paragraphs and images, without tables; `extract_fragment` for selections outside tables or in one cell; `insert_image`; document statistics; `import_plain_text`, `export_plain_text`;
`get_text_at_position`, `get_block_at_position`; `set_text_format`, `merge_text_format`, `set_block_format`
with undo and redo, and the API formats they take; the six table structure operations and
`expand_for_spans` as grid operations; list markers and `ListGrouper`; the escaping functions of the
exporters; highlighting; `LongOperationManager`; `insert_markdown_at_position` and `insert_html_at_position` from the parsed blocks on.

Not modelled: the Markdown and HTML parsers below the event and tree level (pulldown-cmark, scraper), the zip container of a DOCX file;
the direct-access controllers beyond what the editing commands use; the command-line tool, the macros, serialisation;
grapheme segmentation, word segmentation, regular expressions and lower-casing (parameters of the model).

The document-level theorems (C16–C21, C26, C36, C37, C47–C50, C52–C86, C95, C96) are about documents of one frame without
tables and images, of any number and length of paragraphs with any formats; C67–C74, C86, C93 and C98–C106 are about documents whose main
frame holds any mix of paragraphs and tables, without images and nested tables.
C87–C92 are about any store whose references are valid (`Tidy`), with tables, lists, images and nested frames; the
deletions in their histories include those across table cells.
C94 is about fragments: paragraphs and tables without images.
