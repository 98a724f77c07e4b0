{"id": "C01", "title": "Character-format tables stay well formed", "statement": "After any sequence of character-format changes, text insertions, text deletions, paragraph splits and paragraph merges, the formatted spans reported for a paragraph are non-empty, sorted, non-overlapping, never two touching spans with equal format, and never reach past the end of the paragraph.", "quantifier": "every paragraph, every well-formed span table, every byte range and every edit length, any number of edits in a row", "why_tests_cant": "the span tables form an infinite set and a bad one usually appears only after a long sequence of edits", "anchors": ["crates/common/src/format_runs.rs:splice_range", "crates/common/src/format_runs.rs:coalesce_in_place", "crates/common/src/format_runs.rs:shift_runs_for_insert", "crates/common/src/format_runs.rs:shift_runs_for_delete", "crates/common/src/format_runs.rs:split_runs_at", "crates/common/src/format_runs.rs:debug_assert_well_formed"]}
{"id": "C02", "title": "Formatting a range changes exactly that range", "statement": "Applying a character format to a range gives every character inside the range its old format overridden by exactly the fields that were set, and leaves the format of every character outside the range unchanged.", "quantifier": "every span table, every range, every combination of set and unset fields, every character position", "why_tests_cant": "unit tests sample a few positions; locality has to hold for every position, range and prior span layout", "anchors": ["crates/document_formatting/src/use_cases/set_text_format_uc.rs:build_replacement_runs", "crates/document_formatting/src/use_cases/set_text_format_uc.rs:merge_dto", "crates/document_formatting/src/use_cases/merge_text_format_uc.rs", "crates/common/src/format_runs.rs:splice_range", "crates/common/src/format_runs.rs:capture_runs_in_range"]}
{"id": "C03", "title": "Typed text inherits the format to its left and moves the rest", "statement": "Inserting n bytes at an offset leaves the format of every earlier byte, gives the new bytes the format of the byte just before the insertion point (default format at the start of the paragraph or after unformatted text), and every later byte keeps its format n places to the right; inline images move along.", "quantifier": "every well-formed span table, offset, insertion length and byte position", "why_tests_cant": "boundary cases (insertion at a span start, at a span end, between touching spans) cannot all be sampled", "anchors": ["crates/common/src/format_runs.rs:shift_runs_for_insert", "crates/common/src/format_runs.rs:shift_images_for_insert", "crates/document_editing/src/use_cases/insert_text_uc.rs:execute_insert_simple"]}
{"id": "C04", "title": "Deleting text keeps the format of what remains", "statement": "Deleting a byte range leaves every byte before the range with its format and every byte after the range with its format, moved left; images inside the range disappear, the others move along, and the number of removed images is reported exactly.", "quantifier": "every span table, image list and byte range", "why_tests_cant": "needs all relative placements of spans, images and the range", "anchors": ["crates/common/src/format_runs.rs:shift_runs_for_delete", "crates/common/src/format_runs.rs:shift_images_for_delete"]}
{"id": "C05", "title": "Splitting then re-joining a paragraph is lossless for formats and images", "statement": "Splitting a paragraph distributes formats and images so that each character and image keeps its format in the half where it lands; joining the two halves again gives back exactly the original span table and image list.", "quantifier": "every well-formed span table, image list and split offset", "why_tests_cant": "round trip over an infinite family of tables and offsets", "anchors": ["crates/common/src/format_runs.rs:split_runs_at", "crates/common/src/format_runs.rs:split_images_at", "crates/document_editing/src/use_cases/insert_block_uc.rs:execute_insert_block", "crates/document_editing/src/use_cases/delete_text_uc.rs:execute_delete"]}
{"id": "C06", "title": "Undoing a character-format change restores the exact previous formats", "statement": "Undo of set_char_format / merge_char_format restores the span table and image formats of every touched paragraph exactly as they were, and redo re-applies the same result.", "quantifier": "every document, range and format value", "why_tests_cant": "the inverse is hand-written rather than a snapshot; it must be exact for every prior state", "anchors": ["crates/document_formatting/src/use_cases/set_text_format_uc.rs:apply_inverse", "crates/document_formatting/src/use_cases/set_text_format_uc.rs:execute_set_text_format", "crates/document_formatting/src/use_cases/merge_text_format_uc.rs"]}
{"id": "C07", "title": "Fragments tile the paragraph", "statement": "The text fragments and images reported for a paragraph, read in order, contain exactly the paragraph's text once and every inline image once and in order, and each text fragment carries the format stored for its characters.", "quantifier": "every paragraph text, well-formed span table and sorted image list aligned to character boundaries", "why_tests_cant": "a missing or duplicated slice only shows for particular interleavings of spans and images", "anchors": ["crates/common/src/format_runs.rs:inline_segments_view", "crates/public_api/src/text_block.rs:build_fragments"]}
{"id": "C08", "title": "In-paragraph character offsets map to the right byte", "statement": "Converting a character offset inside a paragraph to a storage offset always yields a character boundary inside the text, is monotone, clamps out-of-range offsets to the ends, and for a paragraph without images lands exactly after that many characters.", "quantifier": "every text (any mix of 1-4 byte characters), image list and offset", "why_tests_cant": "multi-byte boundaries and image interleavings form an infinite family", "anchors": ["crates/common/src/format_runs.rs:logical_offset_to_byte", "crates/common/src/database/rope_helpers.rs:block_char_to_byte_in_block"]}
{"id": "C09", "title": "The paragraph index is always consistent", "statement": "After any sequence of index operations the stored look-up tables agree with the ordered entry list: looking a paragraph up by id gives its true position, its byte range ends where the next one starts, and the table count is the number of table entries.", "quantifier": "every history of index operations with distinct ids", "why_tests_cant": "cache coherence over unbounded histories", "anchors": ["crates/common/src/database/block_offset_index.rs:insert_at", "crates/common/src/database/block_offset_index.rs:remove_at", "crates/common/src/database/block_offset_index.rs:drain_inclusive", "crates/common/src/database/block_offset_index.rs:push", "crates/common/src/database/block_offset_index.rs:rebuild_marker_index"]}
{"id": "C10", "title": "Finding the paragraph at a storage offset is right", "statement": "For every offset within the document, the lookup returns the paragraph whose range contains the offset, the end of the document belongs to the last paragraph, and an offset past the end gives nothing.", "quantifier": "every well-formed index and every offset", "why_tests_cant": "binary search correctness for all index sizes", "anchors": ["crates/common/src/database/block_offset_index.rs:marker_at_byte", "crates/common/src/database/block_offset_index.rs:byte_to_marker_byte", "crates/common/src/database/block_offset_index.rs:block_at_byte", "crates/common/src/database/block_offset_index.rs:byte_to_block_byte"]}
{"id": "C11", "title": "A text edit inside one paragraph changes that paragraph only", "statement": "Inserting or deleting text inside a paragraph changes that paragraph's text exactly as asked and leaves the text of every other paragraph unchanged.", "quantifier": "every document, every paragraph, offset and text", "why_tests_cant": "frame property over all other paragraphs of documents of any size", "anchors": ["crates/common/src/database/rope_helpers.rs:rope_insert_in_block", "crates/common/src/database/rope_helpers.rs:rope_delete_in_block", "crates/common/src/database/rope_helpers.rs:block_content_via_store"]}
{"id": "C12", "title": "Splitting and merging paragraphs act on exactly those paragraphs", "statement": "Splitting a paragraph replaces it by its two halves; merging a range of paragraphs replaces them by the kept prefix and suffix; removing a paragraph removes exactly it; replacing content changes exactly it; appending adds exactly it. All other paragraphs keep their text and order.", "quantifier": "every document, every paragraph pair and offsets", "why_tests_cant": "frame property over unbounded documents, with the first/last/empty paragraph corner cases", "anchors": ["crates/common/src/database/rope_helpers.rs:rope_split_block", "crates/common/src/database/rope_helpers.rs:rope_merge_block_range", "crates/common/src/database/rope_helpers.rs:rope_remove_block", "crates/common/src/database/rope_helpers.rs:rope_replace_block_content", "crates/common/src/database/rope_helpers.rs:rope_insert_block_at", "crates/common/src/database/rope_helpers.rs:rope_append_block"]}
{"id": "C13", "title": "Tables can be added to and removed from the text store without disturbing text", "statement": "Inserting a table before or after a paragraph leaves every paragraph's text unchanged, and removing the table again restores the text store exactly.", "quantifier": "every document, every anchor paragraph, before or after", "why_tests_cant": "all positions including around empty first and last paragraphs", "anchors": ["crates/common/src/database/rope_helpers.rs:rope_insert_table_anchor", "crates/common/src/database/rope_helpers.rs:rope_remove_table_anchor"]}
{"id": "C14", "title": "The plain text of a document is its paragraphs joined by newlines", "statement": "For a document without tables and sub-frames, to_plain_text equals the texts of the paragraphs in order joined by single newlines, after any history of edits.", "quantifier": "every reachable table-free document", "why_tests_cant": "must hold after every history", "anchors": ["crates/common/src/database/rope_helpers.rs:rope_flat_text_if_simple", "crates/document_io/src/use_cases/export_plain_text_uc.rs"]}
{"id": "C15", "title": "A document position denotes one paragraph and offset", "statement": "In a table-free document, resolving a character position gives the unique paragraph and offset such that the text before it has exactly that many characters; positions outside the document are clamped to its ends; the paragraph's own reported position agrees.", "quantifier": "every document text and every position", "why_tests_cant": "multi-byte text, empty paragraphs and every position", "anchors": ["crates/common/src/database/rope_helpers.rs:find_block_at_char_position", "crates/common/src/database/rope_helpers.rs:block_document_position", "crates/common/src/database/rope_helpers.rs:block_char_length"]}
{"id": "C16", "title": "insert_text inserts exactly the given text", "statement": "insert_text at a position without selection makes the plain text equal to old text before the position + inserted text + old text after, returns the position after the inserted text, adds the inserted characters to the character count and keeps the number of paragraphs.", "quantifier": "every table- and image-free document, every in-range position and text", "why_tests_cant": "every document, position and multi-byte text", "anchors": ["crates/document_editing/src/use_cases/insert_text_uc.rs:execute_insert_simple", "crates/public_api/src/cursor.rs:insert_text"]}
{"id": "C17", "title": "delete_text removes exactly the selected range", "statement": "Deleting a selection makes the plain text equal to old text with exactly the selected characters removed, returns the removed text, and updates character and paragraph counts accordingly; paragraphs wholly inside the range disappear.", "quantifier": "every table- and image-free document and every pair of in-range positions", "why_tests_cant": "all cross-paragraph combinations", "anchors": ["crates/document_editing/src/use_cases/delete_text_uc.rs:execute_delete"]}
{"id": "C18", "title": "insert_block inserts exactly one paragraph break", "statement": "insert_block makes the plain text equal to old text with one newline inserted at the position, increases the paragraph count by one, gives the new paragraph the block format of the old one and keeps every character's format.", "quantifier": "every table- and image-free document and in-range position", "why_tests_cant": "all positions and span layouts", "anchors": ["crates/document_editing/src/use_cases/insert_block_uc.rs:execute_insert_block"]}
{"id": "C19", "title": "Typing over a selection equals deleting it and then typing", "statement": "insert_text with a selection gives the same plain text, counts and caret as removing the selection and then inserting the text.", "quantifier": "every document, selection and text", "why_tests_cant": "two code paths must agree on all inputs", "anchors": ["crates/document_editing/src/use_cases/insert_text_uc.rs:execute_insert_with_selection", "crates/public_api/src/cursor.rs:insert_text"]}
{"id": "C20", "title": "Undo restores, redo re-applies, for every editing command", "statement": "For each editing command, undo right after the command restores the text, formats, images and counts it started from, and redo then restores those it had produced.", "quantifier": "every command kind, arguments and start state", "why_tests_cant": "inverse laws quantify over all states; several undo paths are hand-written", "anchors": ["crates/document_editing/src/use_cases/insert_text_uc.rs:undo", "crates/document_editing/src/use_cases/insert_formatted_text_uc.rs:undo", "crates/document_editing/src/use_cases/delete_text_uc.rs:undo", "crates/document_editing/src/use_cases/insert_block_uc.rs:undo"]}
{"id": "C21", "title": "Undo/redo history is a faithful time line", "statement": "After any sequence of n commands, k undos lead to the state after n-k commands and k redos lead back; undo on an empty history and redo on an empty future do nothing.", "quantifier": "every list of commands that satisfy the inverse law and every k", "why_tests_cant": "histories are unbounded", "anchors": ["crates/common/src/undo_redo.rs:undo", "crates/common/src/undo_redo.rs:redo", "crates/common/src/undo_redo.rs:add_command_to_stack"]}
{"id": "C22", "title": "A new edit discards the redo future", "statement": "Adding a command to a stack empties that stack's redo list, whether it is appended or merged into the previous one.", "quantifier": "every stack state and command", "why_tests_cant": "any state of the manager", "anchors": ["crates/common/src/undo_redo.rs:add_command_to_stack", "crates/common/src/undo_redo.rs:end_composite"]}
{"id": "C23", "title": "Grouped edits undo and redo as one step", "statement": "Commands added between the outermost begin_composite and end_composite form one history entry; a single undo reverts all of them in reverse order and a single redo replays them in order; an empty group adds no entry.", "quantifier": "every command list and nesting depth", "why_tests_cant": "nesting depth and group length are unbounded", "anchors": ["crates/common/src/undo_redo.rs:begin_composite", "crates/common/src/undo_redo.rs:end_composite", "crates/common/src/undo_redo.rs:CompositeCommand"]}
{"id": "C24", "title": "A failing undo or redo loses no history", "statement": "If a command's undo (redo) reports an error, the error is returned and the command stays where it was, so both history lists are unchanged.", "quantifier": "every stack state and every failing command", "why_tests_cant": "failure injection at every history point", "anchors": ["crates/common/src/undo_redo.rs:undo", "crates/common/src/undo_redo.rs:redo"]}
{"id": "C25", "title": "Undo stacks of different documents are isolated", "statement": "An operation on one stack never changes the undo or redo list of another stack, and the root stack can never be deleted.", "quantifier": "every manager state, pair of stacks and operation", "why_tests_cant": "all interleavings of operations on any number of stacks", "anchors": ["crates/common/src/undo_redo.rs:UndoRedoManager", "crates/common/src/undo_redo.rs:delete_stack", "crates/common/src/undo_redo.rs:create_new_stack", "crates/common/src/undo_redo.rs:clear_stack"]}
{"id": "C26", "title": "Consecutive keystrokes coalesce into an equivalent single edit", "statement": "When two typing (or deleting) commands are merged into one history entry, undoing the merged entry reverts both and redoing it yields the same text as the two commands in a row; merging happens only for adjacent edits within the size limit.", "quantifier": "every pair of mergeable commands and start state", "why_tests_cant": "merge conditions over all texts, positions and sizes", "anchors": ["crates/document_editing/src/use_cases/insert_text_uc.rs:can_merge", "crates/document_editing/src/use_cases/insert_text_uc.rs:merge", "crates/document_editing/src/use_cases/delete_text_uc.rs:can_merge", "crates/document_editing/src/use_cases/delete_text_uc.rs:merge"]}
{"id": "C27", "title": "Transactions are atomic", "statement": "A write transaction that is rolled back, or dropped at any point without commit, leaves the document exactly as before it began, whatever was written; a committed one keeps all of its writes.", "quantifier": "every state, every list of writes and every crash point in it", "why_tests_cant": "all crash points of all write sequences", "anchors": ["crates/common/src/database/transactions.rs:Transaction", "crates/common/src/database/rope_store.rs:RopeStore"]}
{"id": "C28", "title": "Ids are never reused across undo", "statement": "Ids handed out for new paragraphs, frames, tables etc. are unique over the life of the document even when undo restores earlier content in between; no new id equals one that was handed out before.", "quantifier": "every interleaving of creations, commits, undo restores and save points", "why_tests_cant": "histories are unbounded", "anchors": ["crates/common/src/database/rope_store.rs:next_id", "crates/common/src/database/rope_store.rs:restore_without_counters", "crates/common/src/database/rope_store.rs:restore_store_snapshot"]}
{"id": "C29", "title": "Events of rolled-back work are never published", "statement": "Events queued during a transaction are published exactly once and in order on commit, and not at all after a rollback; nothing leaks into the next transaction.", "quantifier": "every sequence of begin, push, flush and discard", "why_tests_cant": "all interleavings", "anchors": ["crates/common/src/event.rs:EventBuffer"]}
{"id": "C30", "title": "Every document event is delivered exactly once per channel", "statement": "With a live callback subscriber and a polling reader, each event reaches the callback and the poll channel exactly once and in order, regardless of how polls, callback dispatches and trims interleave, and delivered events are eventually dropped.", "quantifier": "every interleaving of queue, poll, dispatch and trim steps", "why_tests_cant": "all schedules", "anchors": ["crates/public_api/src/inner.rs:drain_poll_events", "crates/public_api/src/inner.rs:take_queued_events", "crates/public_api/src/inner.rs:trim_delivered_events"]}
{"id": "C31", "title": "Other cursors follow edits", "statement": "After an edit that replaces `removed` characters at a position by `added` ones, every other cursor before the edit stays, every cursor after it moves by the length difference, cursors inside the removed range end up at the edit, order between cursors is kept and no cursor leaves the document.", "quantifier": "every cursor offset and edit", "why_tests_cant": "all relative placements", "anchors": ["crates/public_api/src/inner.rs:adjust_offset", "crates/public_api/src/inner.rs:adjust_cursors"]}
{"id": "C32", "title": "Undo/redo change notifications describe the real change", "statement": "The position, removed and added counts announced after undo/redo turn the old text into the new text when applied as a single replacement, and the unchanged prefix and suffix are maximal.", "quantifier": "every pair of texts", "why_tests_cant": "all pairs of texts", "anchors": ["crates/public_api/src/document.rs:compute_text_edit", "crates/public_api/src/document.rs:emit_undo_redo_change_events"]}
{"id": "C33", "title": "Flow change notifications reconstruct the flow", "statement": "Applying the announced removal and insertion to the previously known list of flow elements yields the length and unchanged prefix/suffix of the new list.", "quantifier": "every pair of element lists", "why_tests_cant": "all pairs of lists", "anchors": ["crates/public_api/src/inner.rs:check_flow_changed"]}
{"id": "C34", "title": "Search is sound and complete", "statement": "find_all reports exactly the positions where the query occurs in the document text (respecting case sensitivity and whole-word options), in increasing order, with the query's length; an empty query gives nothing.", "quantifier": "every document text, query and option combination", "why_tests_cant": "all texts and queries", "anchors": ["crates/document_search/src/use_cases/search_helpers.rs:find_all_matches", "crates/document_search/src/use_cases/find_all_uc.rs"]}
{"id": "C35", "title": "Find next / find previous return the nearest match", "statement": "Forward search from a position returns the first match at or after it; backward search the last match before it; nothing exactly when there is none.", "quantifier": "every match list and start position", "why_tests_cant": "all start positions", "anchors": ["crates/document_search/src/use_cases/find_text_uc.rs"]}
{"id": "C36", "title": "Replace-all replaces every occurrence and nothing else", "statement": "replace_text with replace_all turns each non-overlapping occurrence of the query into the replacement and leaves all other text unchanged; the reported count is the number of replacements and the character count stays right.", "quantifier": "every document, query and replacement", "why_tests_cant": "all texts, incl. self-overlapping queries", "anchors": ["crates/document_search/src/use_cases/replace_text_uc.rs:execute_replace", "crates/document_search/src/use_cases/search_helpers.rs:find_all_matches"]}
{"id": "C37", "title": "Plain-text import/export round trip", "statement": "Importing a string and exporting it gives the string with CRLF and CR turned into LF; importing the export again changes nothing; paragraph and character counts match the imported lines.", "quantifier": "every string", "why_tests_cant": "all strings", "anchors": ["crates/document_io/src/use_cases/import_plain_text_uc.rs", "crates/document_io/src/use_cases/export_plain_text_uc.rs"]}
{"id": "C38", "title": "Table structure edits keep the grid a tiling", "statement": "After inserting or removing rows or columns, merging and splitting cells, every grid position of the table is covered by exactly one cell and no cell sticks out of the table.", "quantifier": "every table whose cells tile the grid and every valid operation", "why_tests_cant": "all tables and operation sequences", "anchors": ["crates/document_editing/src/use_cases/insert_table_row_uc.rs", "crates/document_editing/src/use_cases/insert_table_column_uc.rs", "crates/document_editing/src/use_cases/remove_table_row_uc.rs", "crates/document_editing/src/use_cases/remove_table_column_uc.rs", "crates/document_editing/src/use_cases/merge_table_cells_uc.rs", "crates/document_editing/src/use_cases/split_table_cell_uc.rs"]}
{"id": "C39", "title": "Cell selections expand to whole merged cells", "statement": "Expanding a rectangular cell selection terminates and yields the smallest rectangle containing it that cuts no merged cell.", "quantifier": "every range and cell list", "why_tests_cant": "fixed-point iteration over all span layouts", "anchors": ["crates/public_api/src/flow.rs:expand_for_spans"]}
{"id": "C40", "title": "List markers are distinct and correct", "statement": "The marker of an item encodes its 1-based number: roman markers evaluate back to the number, decimal markers are the number, and two different items of one list never share a marker for numbered styles.", "quantifier": "every list style, prefix, suffix and item index", "why_tests_cant": "all indices", "anchors": ["crates/public_api/src/text_block.rs:format_list_marker", "crates/public_api/src/text_block.rs:to_roman_upper"]}
{"id": "C41", "title": "Fragment ids are unique", "statement": "Two fragments with different paragraph or start offset never have the same element id, and element ids never collide with stored entity ids, for paragraph ids below 2^30.", "quantifier": "every pair of (paragraph id, byte offset)", "why_tests_cant": "all pairs", "anchors": ["crates/common/src/format_runs.rs:synth_element_id"]}
{"id": "C42", "title": "Highlighting overlays formats without touching text", "statement": "Merging highlight spans into fragments keeps the concatenated text and offsets, gives each character the base format overridden by the spans covering it with later spans winning, and keeps links/anchors.", "quantifier": "every fragment list and span list", "why_tests_cant": "all overlaps", "anchors": ["crates/public_api/src/highlight.rs:merge_highlight_spans", "crates/public_api/src/highlight.rs:merge_overlapping_highlights", "crates/public_api/src/highlight.rs:apply_highlight"]}
{"id": "C43", "title": "Incremental re-highlighting equals full re-highlighting", "statement": "After an edit, re-highlighting from the affected paragraph leaves the same highlight data as re-highlighting the whole document from scratch, for highlighters that depend only on the text and the previous state.", "quantifier": "every highlighter, document and edit", "why_tests_cant": "all highlighters and edits", "anchors": ["crates/public_api/src/highlight.rs:rehighlight_from_block", "crates/public_api/src/highlight.rs:rehighlight_all"]}
{"id": "C44", "title": "Imported list items are grouped correctly", "statement": "While importing, an item reuses an existing list exactly when the last registered list at its indent level, not interrupted by a shallower item or a non-list block, has the same style.", "quantifier": "every sequence of items and resets", "why_tests_cant": "all sequences", "anchors": ["crates/common/src/parser_tools/list_grouper.rs:ListGrouper"]}
{"id": "C45", "title": "Exported text is properly escaped", "statement": "HTML and LaTeX export escape text so that no active character of the target syntax survives unescaped and unescaping gives the original text back; distinct texts stay distinct.", "quantifier": "every string", "why_tests_cant": "all strings", "anchors": ["crates/document_io/src/use_cases/export_html_uc.rs:escape_html", "crates/public_api/src/fragment.rs:escape_html", "crates/document_io/src/use_cases/export_latex_uc.rs:escape_latex", "crates/document_io/src/use_cases/export_markdown_uc.rs:escape_markdown"]}
{"id": "C46", "title": "Background operations follow their life cycle", "statement": "A background operation reports Running until it ends in exactly one of Completed, Cancelled or Failed; a result is available only if it completed; operation ids are unique; a finished state never changes again.", "quantifier": "every schedule of start, cancel, progress, finish and cleanup steps", "why_tests_cant": "all interleavings of threads", "anchors": ["crates/common/src/long_operation.rs:LongOperationManager"]}
{"id": "C47", "title": "Document statistics are right after any history", "statement": "The reported character and paragraph counts equal the actual number of characters and paragraphs after any history of imports, insertions, deletions, paragraph breaks, replacements, undos and redos.", "quantifier": "every history on table- and image-free documents", "why_tests_cant": "counters are maintained incrementally over unbounded histories", "anchors": ["crates/document_editing/src/use_cases/insert_text_uc.rs", "crates/document_editing/src/use_cases/delete_text_uc.rs", "crates/document_editing/src/use_cases/insert_block_uc.rs", "crates/document_inspection/src/use_cases/get_document_stats_uc.rs"]}
{"id": "C48", "title": "Reading back text and paragraphs by position agrees with the plain text", "statement": "text_at(position, length) returns the characters of the plain text at that place (fewer at the end), and block_at_position returns the paragraph containing it with its true start, length and number.", "quantifier": "every table- and image-free document, position and length", "why_tests_cant": "all positions and lengths", "anchors": ["crates/document_inspection/src/use_cases/get_text_at_position_uc.rs", "crates/document_inspection/src/use_cases/get_block_at_position_uc.rs"]}
{"id": "C49", "title": "Formatting a selection changes the formats of the selected characters only", "statement": "Setting or merging a character format between two positions gives exactly the characters between them the given fields, keeping their other fields, whichever position comes first; the text, counts, paragraphs and all other characters' formats are unchanged.", "quantifier": "every document, pair of positions and format", "why_tests_cant": "all documents, selections across paragraphs and existing formats", "anchors": ["crates/document_formatting/src/use_cases/set_text_format_uc.rs", "crates/document_formatting/src/use_cases/merge_text_format_uc.rs", "crates/public_api/src/cursor.rs: set_char_format, merge_char_format"]}
{"id": "C50", "title": "Paragraph formatting changes the paragraphs of the selection only", "statement": "Setting a block format for a selection (or a caret) gives exactly the paragraphs it touches the given fields, a heading level being brought into 0..6; nothing else changes.", "quantifier": "every document, pair of positions and block format", "why_tests_cant": "all documents and selections, including carets at paragraph ends and empty paragraphs", "anchors": ["crates/document_formatting/src/use_cases/set_block_format_uc.rs", "crates/public_api/src/cursor.rs: set_block_format"]}
{"id": "C51", "title": "A format handed to the API reads back as given", "statement": "After set_char_format, merge_char_format or set_block_format every field given in the format reads back with the value given, and every field not given reads as before.", "quantifier": "every format value and every previous format", "why_tests_cant": "all combinations of fields and numeric values", "anchors": ["crates/public_api/src/convert.rs", "crates/public_api/src/lib.rs: TextFormat, BlockFormat"]}
{"id": "C52", "title": "Cursors stay in the document", "statement": "After any history of calls on any number of cursors of one document (positioning, movement, selection, typing, Enter, Delete, Backspace, removing the selection, undo, redo) every cursor's position and anchor lie between 0 and the length of the document; set_position goes to the first place at or after the position asked for that is not inside a grapheme cluster; after an edit by one cursor the others move with the text around them.", "quantifier": "every document, number of cursors and history of calls", "why_tests_cant": "unbounded histories over interacting cursors", "anchors": ["crates/public_api/src/cursor.rs: set_position, move_position, select, insert_text, insert_block, delete_char, delete_previous_char, remove_selected_text", "crates/public_api/src/document.rs: cursor_at, undo, redo"]}
{"id": "C53", "title": "Movement and deletion by character keep clusters whole", "statement": "Moving by n characters takes n steps from one place to the next (places are paragraph starts and ends and the gaps between grapheme clusters), stopping at the ends of the document; a step forward and one back cancel; Delete and Backspace without a selection remove exactly the cluster or the paragraph break next to the cursor, and nothing at the ends of the document.", "quantifier": "every document, cursor place, count and cluster segmentation", "why_tests_cant": "all texts and segmentations", "anchors": ["crates/public_api/src/cursor.rs: resolve_move, next_grapheme_position, prev_grapheme_position, delete_char, delete_previous_char"]}
{"id": "C54", "title": "Movement by paragraph", "statement": "Start and end of block go to the ends of the cursor's paragraph, next and previous block to the start of the neighbouring one (or the end or start of the document); selecting the block selects it whole; block_number, position_in_block, at_block_start and at_block_end tell where the cursor is.", "quantifier": "every document and cursor position", "why_tests_cant": "all documents including empty paragraphs, and all positions", "anchors": ["crates/public_api/src/cursor.rs: resolve_move, select, at_block_start, at_block_end, block_number, position_in_block", "crates/document_inspection/src/use_cases/get_block_at_position_uc.rs"]}
{"id": "C55", "title": "Movement and selection by word", "statement": "Selecting the word under the cursor selects the word the cursor is in; next word goes to the end of the word the cursor is in or of the next one, previous word to the start of the word the cursor is in or of the one before.", "quantifier": "every document, cursor position and word segmentation", "why_tests_cant": "all texts and segmentations", "anchors": ["crates/public_api/src/cursor.rs: find_word_boundaries, resolve_move, select"]}
{"id": "C56", "title": "What a cursor reads", "statement": "selected_text is the text between the two ends of the selection; selecting everything reads the plain text of the document; char_format is the format of the character after the cursor; block_format is that of the cursor's paragraph.", "quantifier": "every document and selection", "why_tests_cant": "all documents, formats and selections", "anchors": ["crates/public_api/src/cursor.rs: selected_text, char_format, block_format"]}
{"id": "C57", "title": "Lists", "statement": "create_list makes a new list of the given style and makes exactly the paragraphs the selection touches its items; add_block_to_list and remove_block_from_list change the list of exactly one paragraph, and a list whose last item leaves it disappears; set_list_format changes exactly the given fields; the items of a list are read in document order and numbered by it; after any history of these calls every item belongs to a list of the document and every list of the document exists.", "quantifier": "every document, selection and history of list calls", "why_tests_cant": "unbounded documents and histories", "anchors": ["crates/document_editing/src/use_cases/create_list_uc.rs: execute_create_list", "crates/document_editing/src/use_cases/add_block_to_list_uc.rs", "crates/document_editing/src/use_cases/remove_block_from_list_uc.rs", "crates/document_editing/src/use_cases/insert_list_uc.rs", "crates/document_formatting/src/use_cases/set_list_format_uc.rs", "crates/public_api/src/text_list.rs: count, item"]}
{"id": "C58", "title": "Inserting formatted text", "statement": "insert_formatted_text inserts exactly the given text at the caret, or in place of the selection (within a paragraph or across paragraphs); every inserted character has the given format whatever surrounds it, every other character keeps its own, the counts are right and the caret is after the text.", "quantifier": "every document, caret, anchor, text and format", "why_tests_cant": "unbounded documents, selections and existing formats", "anchors": ["crates/document_editing/src/use_cases/insert_formatted_text_uc.rs", "crates/public_api/src/cursor.rs: insert_formatted_text"]}
{"id": "C59", "title": "HTML export shows the document", "statement": "to_html gives well-formed markup that an HTML reader reads back as the paragraphs of the document in order: headings, list items, code blocks with their language and plain paragraphs with their style, every character of the text exactly once with its marks (bold, italic, underline, strike-through, code) and its link target; no text, link or language can break out of the markup.", "quantifier": "every document: texts, formats, headings, lists, code blocks", "why_tests_cant": "unbounded texts and formats, including text that looks like markup", "anchors": ["crates/document_io/src/use_cases/export_html_uc.rs", "crates/public_api/src/document.rs: to_html"]}
{"id": "C60", "title": "Inserting a frame adds one empty paragraph and nothing else", "statement": "insert_frame at the caret adds one frame holding one empty paragraph right after the paragraph of the caret in reading order; every other paragraph, text, format, list and table stays; undo gives back exactly the document of before; the new paragraph takes part in the text where it was put and is exported once.", "quantifier": "every document, every caret position", "why_tests_cant": "unbounded documents and positions", "anchors": ["crates/document_editing/src/use_cases/insert_frame_uc.rs", "crates/public_api/src/cursor.rs: insert_frame"]}
{"id": "C61", "title": "Document statistics", "statement": "stats() reports the number of words of the plain text, each counted once wherever paragraphs break it, the numbers of frames, images, lists and tables, and the character and paragraph counts.", "quantifier": "every document", "why_tests_cant": "unbounded texts", "anchors": ["crates/document_inspection/src/use_cases/get_document_stats_uc.rs", "crates/public_api/src/document.rs: stats"]}
{"id": "C62", "title": "Inserting an image", "statement": "insert_image puts one image at the caret: one object character in the text there, the image with its name and size at that place, one character more in the count; every other character keeps its format and every other paragraph stays; the document can be read afterwards, the image can be deleted again, and undo gives back the document of before.", "quantifier": "every document, caret, name and size", "why_tests_cant": "unbounded documents, formats and positions", "anchors": ["crates/document_editing/src/use_cases/insert_image_uc.rs", "crates/public_api/src/cursor.rs: insert_image"]}
{"id": "C63", "title": "Copying gives the selected text", "statement": "Copying the text between two positions, in either order, gives a fragment that holds, for each paragraph the selection touches, its selected characters with the formats they show, and of a paragraph taken whole also the paragraph format and the kind of list; the plain text of the fragment is the selected text.", "quantifier": "every document of one frame without images whose stored positions are right, every two positions", "why_tests_cant": "tests copy a few selections of a few documents; which paragraphs count as whole and what happens at paragraph ends depends on every combination of ends and lengths", "anchors": ["crates/document_inspection/src/use_cases/extract_fragment_uc.rs: ExtractFragmentUseCase::execute, block_to_fragment_block, extract_elements_in_range", "crates/public_api/src/cursor.rs: selection"]}
{"id": "C64", "title": "Pasting puts the fragment at the caret", "statement": "Pasting a fragment puts its characters, with their formats, at the caret. A paragraph of the fragment with paragraph formatting or a list becomes a paragraph of its own with that formatting; a first or last one without joins the text around the caret. All other text stays, the caret ends up behind the pasted text, counts and stored positions are right, and undo gives back the document of before.", "quantifier": "every document of one frame whose stored positions are right, every caret, every fragment of one or more paragraphs of text", "why_tests_cant": "tests paste a few fragments at a few carets; which of four paths is taken depends on the caret, the number of paragraphs and the formatting of the first and the last one", "anchors": ["crates/document_editing/src/use_cases/insert_fragment_uc.rs: InsertFragmentUseCase::execute, undo", "crates/public_api/src/cursor.rs: insert_fragment"]}
{"id": "C65", "title": "Copy and paste carry a selection over", "statement": "Copying a selection and pasting it, into the same document or another one, puts the selected characters at the caret with the formats they show; a paragraph copied whole and pasted into an empty paragraph keeps its paragraph format.", "quantifier": "every selection of every source document and every caret of every target document, each of one frame with right stored positions and without images", "why_tests_cant": "tests copy and paste single examples; the claim composes two commands over every pair of documents, selections and carets", "anchors": ["crates/document_inspection/src/use_cases/extract_fragment_uc.rs: ExtractFragmentUseCase::execute", "crates/document_editing/src/use_cases/insert_fragment_uc.rs: InsertFragmentUseCase::execute, undo", "crates/public_api/src/cursor.rs: insert_fragment"]}
{"id": "C66", "title": "Handles, the flow and snapshots show the document", "statement": "The block handles of a document, its flow and its snapshots all show the same thing: the paragraphs in order, each with its number, neighbours, start, length, text, character formats, paragraph format, list and item number, and frame. The snapshot at a position is that of the paragraph there; a range gives exactly the paragraphs it meets; the format and the element at a position are those of the character there.", "quantifier": "every document of one frame without tables and images, every paragraph, position and range, whatever the stored positions are", "why_tests_cant": "tests look at a few documents; a layout engine relies on every snapshot agreeing with every handle after every edit", "anchors": ["crates/public_api/src/document.rs: blocks, block_by_number, blocks_in_range, flow, snapshot_flow, snapshot_block_at_position, find_element_at_position", "crates/public_api/src/text_block.rs: TextBlock, build_block_snapshot_with_position_and_parent, build_list_info", "crates/public_api/src/text_frame.rs: build_flow_snapshot, snapshot_from_child_order", "crates/public_api/src/inner.rs: refresh_block_positions"]}
{"id": "C67", "title": "Inserting a table puts one empty table beside the paragraph of the caret", "statement": "Inserting a table of r rows and c columns with the caret in a paragraph puts one table of that size beside it, in front if the caret is at its start and after it otherwise, with r times c cells in reading order that each hold one empty paragraph. No paragraph, other table or list changes, the number of blocks grows by the number of cells, the caret stays, and undo brings the content back.", "quantifier": "every document of paragraphs and tables in one main frame without images, every place of the caret outside the tables, every size", "why_tests_cant": "tests insert one or two tables into short documents; positions, text index and frame order must agree for every mix of tables and paragraphs", "anchors": ["crates/document_editing/src/use_cases/insert_table_uc.rs: execute_insert_table", "crates/document_editing/src/use_cases/editing_helpers.rs: create_cell_frame", "crates/public_api/src/cursor.rs: insert_table"]}
{"id": "C68", "title": "Typing in a document with tables changes one paragraph only", "statement": "In a document with tables, typing a text at a position puts it there, in the cell or the paragraph outside that holds the position, and changes nothing else: all other paragraphs, the tables and their cells stay as they were, the caret moves behind the text, and the number of characters grows by its length.", "quantifier": "every document of paragraphs and tables in one main frame without images, every position in it, every text", "why_tests_cant": "tests type into one or two cells of a small table; positions of later cells and paragraphs must stay right for every mix of tables and paragraphs and after every edit", "anchors": ["crates/document_editing/src/use_cases/insert_text_uc.rs: execute_insert_simple", "crates/document_editing/src/use_cases/editing_helpers.rs: find_block_at_position", "crates/public_api/src/cursor.rs: insert_text"]}
{"id": "C69", "title": "Breaking paragraphs and deleting in a document with tables", "statement": "In a document with tables, a paragraph break splits exactly the paragraph of the caret, in the place where it stands, and deleting a range removes exactly that range; tables, other paragraphs and lists stay, and undo brings the content back.", "quantifier": "every document of paragraphs and tables in one main frame without images, every position in it", "why_tests_cant": "tests break paragraphs in short documents; a break must keep the order of the frame, the text index and all stored positions right for every mix of tables and paragraphs", "anchors": ["crates/document_editing/src/use_cases/insert_block_uc.rs: execute_insert_block", "crates/document_editing/src/use_cases/delete_text_uc.rs: execute_delete"]}
{"id": "C70", "title": "Reading by position and moving the cursor in documents with tables", "statement": "In a document with tables, positions run through the paragraphs before, inside and after the tables in reading order: reading text or the paragraph at a position, placing and moving the cursor, selecting words, paragraphs or everything and reading the selection or the formats at the cursor give the same answers as for a document with those paragraphs and no tables.", "quantifier": "every document of paragraphs and tables in one main frame without images, every position, cursor, movement and count, every text segmentation that obeys the laws of segmentation", "why_tests_cant": "tests move through one small table; the order of positions must be right for every mix of tables, cells of several paragraphs, merged cells and empty paragraphs", "anchors": ["crates/public_api/src/cursor.rs: set_position, move_position, select, selected_text", "crates/document_inspection/src/use_cases/get_text_at_position_uc.rs: execute", "crates/document_inspection/src/use_cases/get_block_at_position_uc.rs: execute"]}
{"id": "C71", "title": "A selection takes in whole tables", "statement": "Extending a selection from outside a table to a position inside it takes in the whole table: the end goes to the nearest paragraph outside beyond the table, or, if there is none, stays where it was asked to. Between two positions in tables or two positions outside, the selection ends where it was asked to. From inside a table to a position outside, the table is enclosed too.", "quantifier": "every document of paragraphs and tables in one main frame without images, every anchor and position, every lawful segmentation", "why_tests_cant": "tests select across one small table from one side; which paragraph is the nearest depends on the mix of tables, cells and empty paragraphs", "anchors": ["crates/public_api/src/cursor.rs: set_position, table_boundary_position, table_cell_at", "crates/public_api/src/text_block.rs: table_cell"]}
{"id": "C72", "title": "Handles, the flow and snapshots show documents with tables", "statement": "In a document with tables the block handles list all paragraphs in reading order and each shows its text, position, number, neighbours, format and the cell it is in; the flow lists paragraphs and tables in order; the flow snapshot shows every paragraph and every cell with its place, spans, format and paragraphs, at their positions in the whole document; table and cell handles give the size of the table, the cell at each place and its paragraphs.", "quantifier": "every document of paragraphs and tables in one main frame without images, every paragraph, cell, position and range", "why_tests_cant": "tests look at one small table; positions and numbers must agree between handles, snapshots and lookups by position for every mix of tables, merged cells and cells of several paragraphs", "anchors": ["crates/public_api/src/text_block.rs: snapshot, table_cell", "crates/public_api/src/text_frame.rs: build_flow_snapshot, build_table_snapshot", "crates/public_api/src/text_table.rs: cell, blocks, snapshot", "crates/public_api/src/document.rs: snapshot_flow, snapshot_block_at_position, blocks_in_range"]}
{"id": "C73", "title": "Setting the format of a table, a cell or a frame", "statement": "Setting a format on a table, a cell or a frame of the document succeeds; every given field reads back as given, every field not given keeps its value; no other table, cell, frame, paragraph or list changes; undo restores the state exactly; a table, cell or frame that is not in the document is refused. The calls on the current table and cell act on those of the paragraph the cursor is in, and are refused outside the tables.", "quantifier": "every document of paragraphs and tables in one main frame without images, every table, cell and frame of it, every format, every cursor position", "why_tests_cant": "tests set one field on one table; that nothing else changes must hold for every document and every combination of given fields", "anchors": ["crates/document_formatting/src/use_cases/set_table_format_uc.rs: execute_set_table_format", "crates/document_formatting/src/use_cases/set_table_cell_format_uc.rs: execute_set_table_cell_format", "crates/document_formatting/src/use_cases/set_frame_format_uc.rs: execute_set_frame_format", "crates/public_api/src/convert.rs: to_set_dto", "crates/public_api/src/text_frame.rs: table_dto_to_format, cell_dto_to_format, frame_dto_to_format", "crates/public_api/src/cursor.rs: set_current_table_format, set_current_cell_format"]}
{"id": "C74", "title": "What a selection over cells is, and the calls on the current table", "statement": "A selection whose ends are in two cells of one table is the smallest rectangle of cells that takes in both cells and cuts no merged cell; inside one cell, and between cells of different tables, it is text; with one end outside the tables it takes the whole table of the other end, and says on which side the text is; with both ends outside it takes the first table between them, or is text if there is none. An explicit range of cells is expanded the same way and then wins. The selected cells are exactly the cells that start in the rectangle, in reading order. Removing, inserting, splitting and merging at the cursor acts on the table, row, column and cell of the paragraph the cursor is in, and is refused outside the tables.", "quantifier": "every document of paragraphs and tables in one main frame without images, every table whose cells tile its grid, every pair of cursor positions, every rectangle", "why_tests_cant": "tests try a few selections in one small table; the rectangle must be closed and smallest for every layout of merged cells, and the classification right for every pair of positions of every document", "anchors": ["crates/public_api/src/cursor.rs: selection_kind, find_table_between, cells_in_range, selected_cells, select_cell_range, merge_selected_cells, remove_current_table, insert_row_above, insert_row_below, insert_column_before, insert_column_after, remove_current_row, remove_current_column, split_current_cell", "crates/public_api/src/flow.rs: CellRange"]}
{"id": "C75", "title": "What loading Markdown or HTML makes of the parsed elements", "statement": "Loading Markdown or HTML replaces the document by what was parsed: every element becomes one paragraph with its text, character formats and paragraph format, or one table with the text of its cells, in the order of the source; list items join the list a reader would expect, block quotes nest; the returned and stored counts are right and every paragraph knows its position. The result is a document as good as one that was typed. The undo history is cleared and nothing of the old document stays.", "quantifier": "every list of parsed elements (paragraphs in any nesting of block quotes and lists, headings, code blocks, tables of every size), both importers, every document without tables to load into", "why_tests_cant": "tests load a few samples; order, positions, lists and counts must be right for every sequence of paragraphs, quotes and tables", "anchors": ["crates/document_io/src/use_cases/import_html_uc.rs: execute", "crates/document_io/src/use_cases/import_markdown_uc.rs: import_parsed_elements", "crates/common/src/parser_tools/content_parser.rs: format_runs_from_spans, character_format_from_span", "crates/common/src/parser_tools/list_grouper.rs: ListGrouper", "crates/public_api/src/document.rs: set_markdown, set_html"]}
{"id": "C76", "title": "What Markdown becomes", "statement": "Loading Markdown gives the document that the Markdown describes: every paragraph, heading (with its level), code block (with its language, without the newline at its end) and table becomes one element, in order and inside as many block quotes as in the source; a forced line break starts a new paragraph; every list item is one item of its list, bulleted or numbered, indented by the number of lists around it; every piece of text is bold, italic, struck out, code or a link just if it is inside such a mark; an empty source is one empty paragraph.", "quantifier": "every tree of Markdown blocks and inline marks, of any depth and size, for the events the parser library gives for it", "why_tests_cant": "tests parse a few samples; the loop over events carries a dozen flags from block to block, and only a proof over all trees shows that none leaks into the next block", "anchors": ["crates/common/src/parser_tools/content_parser.rs: parse_markdown, heading_level_to_i64", "crates/document_io/src/use_cases/import_markdown_uc.rs: execute"]}
{"id": "C77", "title": "What HTML becomes", "statement": "Loading HTML gives the document that the HTML describes: no text is lost or invented, every piece of text has just the formats of the elements around it, and every paragraph, heading (with its level), code block (with its language) and table becomes one element, in order, with its block styles and inside as many block quotes as in the source; every list item is one item of its list, bulleted or numbered, indented by the number of lists around it.", "quantifier": "every HTML tree of any size and shape up to 128 levels for the texts; every tree of a grammar of well-formed documents for the elements and their order", "why_tests_cant": "tests parse a few samples; two mutually recursive walks over arbitrary trees pass seven arguments down, and only a proof over all trees shows that each text arrives once and with the right formats", "anchors": ["crates/common/src/parser_tools/content_parser.rs: parse_html_elements, collect_cell_spans, parse_table_element, walk_node, collect_inline_spans", "crates/document_io/src/use_cases/import_html_uc.rs: execute"]}
{"id": "C78", "title": "What LaTeX export shows", "statement": "Exporting to LaTeX gives a text that LaTeX reads back to the same paragraphs in the same order: every character of every paragraph appears exactly, however many backslashes, braces, percent signs or other special characters it has; code blocks are verbatim, list items are items of a bulleted or numbered list, headings are sections of their level, bold, italic, underlined, struck-out, monospace and linked characters are just those of the document, and line spacing, direction, background and non-breaking are kept; with the preamble it is a complete document.", "quantifier": "every document of paragraphs, with any texts, formats and lists, and both with and without preamble", "why_tests_cant": "tests look for fragments such as \\textbf{...} in the output; only a reader proved to invert the escaping for every character in every nesting of commands shows that no text can break out of its command", "anchors": ["crates/document_io/src/use_cases/export_latex_uc.rs: execute, render_frame_latex, render_blocks_latex, render_inline_latex, render_table_latex", "crates/common/src/parser_tools/content_parser.rs"]}
{"id": "C79", "title": "Markdown export and back", "statement": "Exporting to Markdown gives a text that a Markdown reader reads back to the same paragraphs in the same order: every character of every paragraph appears exactly, however many stars, brackets, hashes or other special characters it has; code blocks keep their text and language, list items are bulleted or numbered, headings have their level, and bold, italic, struck-out, code and linked characters are just those of the document. Loading that text again gives a document with the same paragraphs; if the document only has what Markdown can say, everything comes back the same.", "quantifier": "every document of paragraphs, with any texts, formats and lists, and every document to load it into", "why_tests_cant": "round-trip tests try a few documents; whether a mark can be mistaken, a character can become a mark or two marks can join depends on the character before and after every change of format, for all texts", "anchors": ["crates/document_io/src/use_cases/export_markdown_uc.rs: execute, render_frame_content, render_block_line, render_inline_segments, render_table_markdown", "crates/common/src/parser_tools/content_parser.rs: parse_markdown", "crates/document_io/src/use_cases/import_markdown_uc.rs"]}
{"id": "C80", "title": "Inserting text, Markdown and HTML", "statement": "A fragment made from plain text, Markdown or HTML holds just what that text means: its paragraphs in order, every character with its marks and link, heading levels and lists, and tables at their place with every cell. Inserting it at the caret shows exactly these characters between what was before the caret and what was behind it, with a paragraph end between each two paragraphs; plain paragraphs at the begin and end join the text around the caret, headings and list items are kept apart from it.", "quantifier": "every text, every Markdown tree and HTML tree, every document of paragraphs and every caret position", "why_tests_cant": "tests insert a few snippets; what is joined and what is kept apart depends on the paragraphs at both ends, on the text around the caret and on all the nesting of marks and lists", "anchors": ["crates/public_api/src/fragment.rs: from_plain_text, from_html, from_markdown, from_document", "crates/public_api/src/cursor.rs: insert_fragment, insert_html, insert_markdown", "crates/document_editing/src/use_cases/insert_fragment_uc.rs"]}
{"id": "C81", "title": "The HTML of a fragment", "statement": "The HTML of a fragment, as an HTML reader reads it, has the paragraphs of the fragment in order: every character exactly, however many special characters the text has, bold, italic, underlined, struck-out, code and linked where the fragment has it, headings with their level, bulleted and numbered items, and the alignment, indents and margins of paragraphs. A single plain paragraph is written as its text alone.", "quantifier": "every fragment of text paragraphs, with any texts, formats and lists", "why_tests_cant": "tests compare a few strings; whether text can break out of an element or an item can land in the wrong list depends on all texts and all sequences of paragraphs", "anchors": ["crates/public_api/src/fragment.rs: to_html, push_inline_html, escape_html"]}
{"id": "C82", "title": "Changing a table in a document", "statement": "Adding or removing a row or a column, merging cells and splitting a cell change just that table: every cell that stays keeps its paragraphs, what lies behind an added or removed line moves by one, a new place holds one empty paragraph, the places of merged cells show what the first showed, of a split cell the first part keeps the text, and the cells fill the table again without gap or overlap. Removing a table takes away its cells with their paragraphs and nothing else. All other paragraphs, tables and lists stay as they are, and undo gives the document back. Impossible changes are refused.", "quantifier": "every document of paragraphs and tables, every table with any merged cells and any texts, every line, rectangle and cell", "why_tests_cant": "tests change small tables of single cells; whether some cell gets the text of another or is lost depends on all arrangements of merged cells and on the order in which the cells are stored", "anchors": ["crates/document_editing/src/use_cases/insert_table_row_uc.rs", "crates/document_editing/src/use_cases/insert_table_column_uc.rs", "crates/document_editing/src/use_cases/remove_table_row_uc.rs", "crates/document_editing/src/use_cases/remove_table_column_uc.rs", "crates/document_editing/src/use_cases/merge_table_cells_uc.rs", "crates/document_editing/src/use_cases/split_table_cell_uc.rs", "crates/document_editing/src/use_cases/editing_helpers.rs: reassign_cell_block_positions, compute_table_base_pos", "crates/document_editing/src/use_cases/remove_table_uc.rs"]}
{"id": "C83", "title": "Title, direction, wrap mode and resources are kept, undone and redone", "statement": "set_title, set_text_direction, set_default_wrap_mode and add_resource can be called in any order and mixed with undo, redo and reading resources. No call fails, each reading gives what the time line of these calls says, undo and redo are offered exactly when there is something to undo or redo, and the text, paragraphs, lists and tables are not touched. resource(name) gives the bytes last added under the name that were not undone, and nothing if there are none.", "quantifier": "every sequence of these calls on every document without resources and with an empty history, all titles, names, types and bytes", "why_tests_cant": "a resource is found through a cache of identities that undo and redo make stale; which of the sequences of adding, undoing, reading and redoing confuse it cannot be enumerated", "anchors": ["crates/public_api/src/document.rs: set_title, set_text_direction, set_default_wrap_mode, add_resource, resource, undo, redo", "crates/public_api/src/inner.rs: resource_cache", "crates/direct_access/src/resource/resource_controller.rs", "crates/common/src/direct_access/use_cases/create.rs", "crates/common/src/direct_access/use_cases/update.rs"]}
{"id": "C84", "title": "The text read and the modified flag follow the calls", "statement": "to_plain_text keeps the text it exported and gives it again until something changes. After every sequence of edits, undos, redos, loads and readings it gives the text of the document as it is then. is_modified is true from the first edit by a cursor on until set_modified is called, and otherwise what set_modified made it.", "quantifier": "every sequence of edits, undos, redos, loading texts, starting and finishing imports in any interleaving, readings and set_modified", "why_tests_cant": "a forgotten invalidation shows only in particular interleavings of readings, edits and imports that finish in another thread", "anchors": ["crates/public_api/src/inner.rs: plain_text, invalidate_text_cache", "crates/public_api/src/document.rs: to_plain_text, set_plain_text, clear, set_markdown, set_html, is_modified, set_modified", "crates/public_api/src/cursor.rs: finish_edit_ext"]}
{"id": "C85", "title": "A pasted table appears behind the paragraph with the caret, cell by cell", "statement": "Pasting a fragment that is a table (insert_fragment, insert_html, insert_markdown with a table only) puts a table with the rows, columns, widths, formats and cells of the fragment right behind the paragraph the caret is in, each cell with its text in its formats. All other paragraphs stay as they are, the counts grow by those of the table, and undo gives back the content. When the caret is in a cell of a table that the pasted one fits into, the content of the cells is replaced.", "quantifier": "all documents, caret positions, tables with any number of rows, columns and cells, and all texts and formats of the cells", "why_tests_cant": "the place of the table, the cells and the shared text are computed from lists that earlier edits reorder; tests paste into fresh documents", "anchors": ["crates/document_editing/src/use_cases/insert_fragment_uc.rs: execute_insert_fragment, insert_table_fragment, try_replace_table_cells", "crates/public_api/src/cursor.rs: insert_fragment"]}
{"id": "C86", "title": "DOCX export holds every paragraph and every table cell once, with marks and spans", "statement": "Exporting a document as DOCX writes every paragraph outside the tables once, in document order, with its text, its bold, italic, underlined, struck and monospaced characters, heading level (1 to 6), line spacing and keep-lines flag; and every table once, row by row, with each cell's span and the paragraphs of its text. Tables stand where they stand in the document; the count reported is that of the paragraphs and tables written.", "quantifier": "all documents with any number of paragraphs, tables, rows, columns, spans, texts and formats", "why_tests_cant": "the grid is walked place by place with a record of the covered places; which cells are dropped or doubled depends on every combination of spans, and the order on the order the frames were created in", "anchors": ["crates/document_io/src/use_cases/export_docx_uc.rs: execute, render_table_docx"]}
{"id": "C87", "title": "Removing an entity removes exactly what it owns and every reference to it", "statement": "Removing entities of any kind through the entity commands removes exactly them and everything they own, however deep; every relationship that named one of them names it no longer, no other entity and no other relationship changes, and no reference dangles afterwards. Removing an entity that does not exist is refused.", "quantifier": "all stores in good order, all kinds of entities, all lists of ids", "why_tests_cant": "the cascade goes through eight repositories that call each other and through the back references of every table; a test sees one chain of ownership at a time", "anchors": ["crates/common/src/direct_access/frame/frame_repository.rs: remove_multi, set_relationship", "crates/common/src/direct_access/block/block_table.rs: remove_multi", "crates/common/src/direct_access/use_cases/remove.rs: execute_multi"]}
{"id": "C88", "title": "Undo and redo of the entity commands follow a time line", "statement": "Whatever entities are created, updated and removed through the entity commands, and whatever is undone and redone in between, the content of the store is the one of the time line of these steps: undo brings back exactly the content before the step, redo exactly the content after it. Undo and redo never fail, and ids are not given out twice.", "quantifier": "all histories of any length, of creations, updates and removals of any entities, with refused calls in between", "why_tests_cant": "an undo relies on what the steps before it left; whether ids, owner lists, snapshots and counters still fit depends on the whole history", "anchors": ["crates/common/src/direct_access/use_cases/create.rs: execute_multi, undo, redo", "crates/common/src/direct_access/use_cases/create_orphan.rs: undo, redo", "crates/common/src/direct_access/use_cases/update.rs: undo, redo", "crates/common/src/direct_access/use_cases/remove.rs: undo, redo", "crates/common/src/direct_access/use_cases/set_relationship.rs: undo, redo", "crates/common/src/direct_access/use_cases/move_relationship.rs: undo, redo"]}
{"id": "C89", "title": "Entity calls keep references valid, and a refused call changes nothing", "statement": "A call of an entity command that reports an error changes neither the content nor the id counters nor the history. Creations, updates and removals that respect their preconditions succeed, and every reference still names an existing entity afterwards; ids given out are above all ids in use. Setting a relationship to an entity that does not exist, or a second root to the same document, is refused.", "quantifier": "all stores in good order, all calls", "why_tests_cant": "an error can come at any point of a cascade of writes, and one dangling id shows only in a later command", "anchors": ["crates/common/src/direct_access/frame/frame_repository.rs: remove_multi, set_relationship", "crates/common/src/direct_access/block/block_table.rs: remove_multi", "crates/common/src/direct_access/use_cases/create.rs: execute_multi", "crates/common/src/direct_access/root/root_table.rs: check_one_to_one"]}
{"id": "C90", "title": "Relationships are read, set, moved and kept as asked", "statement": "Reading a relationship, its length and any part of it agree. Setting it gives exactly the ids asked for; moving ids within a list keeps the others in order and puts the moved ones together, in the order given, before the place asked for (at the end if there is no such place). New entities get unused, distinct ids, keep the values given and are put together into the owner's list at the place asked for. Updating an entity gives it the values asked for and keeps its relationships. Nothing else changes in any of these.", "quantifier": "all stores in good order, all relationships, ids, places, and entities (documents are not created in a list)", "why_tests_cant": "every place, list and overlap of moved and kept ids counts, for eleven relationships with code of their own", "anchors": ["crates/common/src/direct_access/frame/frame_table.rs: get_relationship, get_relationship_count, get_relationship_in_range, move_relationship_ids", "crates/common/src/direct_access/block/block_repository.rs: create_multi", "crates/common/src/direct_access/use_cases/update.rs: execute_multi"]}
{"id": "C91", "title": "No command, undo, redo or load leaves a dangling reference", "statement": "Whatever editing commands are called, with whatever arguments, on whatever document, whatever is undone, redone or loaded in between: every paragraph, frame, table, cell and list that something refers to exists, everything is stored under its own id, character formats and images belong to paragraphs that exist, and no id in use is given out again.", "quantifier": "all stores in good order (in particular every new document), all histories of any length over 30 editing commands with any arguments, merging of typing and of deletions, undo, redo, set_plain_text, set_markdown and set_html", "why_tests_cant": "every command touches several tables that refer to each other; a dangling id shows only in a later command, in another order of steps", "anchors": ["crates/document_editing/src/use_cases/insert_text_uc.rs: execute, undo, redo, merge", "crates/document_editing/src/use_cases/delete_text_uc.rs: execute", "crates/document_editing/src/use_cases/insert_table_uc.rs: execute", "crates/document_editing/src/use_cases/merge_table_cells_uc.rs: execute", "crates/document_editing/src/use_cases/insert_fragment_uc.rs: execute", "crates/document_formatting/src/use_cases/set_text_format_uc.rs: apply_inverse", "crates/document_io/src/use_cases/import_html_uc.rs: execute", "crates/document_io/src/use_cases/import_markdown_uc.rs: execute", "crates/public_api/src/document.rs: set_plain_text, set_markdown, set_html"]}
{"id": "C92", "title": "Undo brings back the document, whatever the command and whatever the document", "statement": "In any document, with tables, cells, lists, images and nested frames: undoing any editing command succeeds and brings back the text, every paragraph, frame, table, cell and list with its formats and relationships, every character format and image as they were before the command; and so does every undo in a history of commands, merged typing, undos and redos, for the step it takes back.", "quantifier": "all stores in good order, 30 editing commands with any arguments, all histories of any length", "why_tests_cant": "undo relies on what the command kept and on what the steps in between left behind; only particular documents and short histories can be tried", "anchors": ["crates/document_editing/src/use_cases/insert_text_uc.rs: undo, merge", "crates/document_editing/src/use_cases/insert_formatted_text_uc.rs: undo", "crates/document_editing/src/use_cases/delete_text_uc.rs: undo, merge", "crates/document_editing/src/use_cases/insert_table_uc.rs: undo", "crates/document_editing/src/use_cases/insert_fragment_uc.rs: undo", "crates/document_formatting/src/use_cases/set_text_format_uc.rs: undo, apply_inverse", "crates/common/src/undo_redo.rs: undo, redo, add_command"]}
{"id": "C93", "title": "Deleting a selection across table cells empties exactly the selected cells", "statement": "Deleting a selection that starts in one cell of a table and ends in another removes the text of the cells the selection runs over and nothing else: the table, the other cells and the paragraphs before and after it stay, and later commands find every cell where the text says it is.", "quantifier": "all documents of paragraphs and tables, all selections that start and end in different cells", "why_tests_cant": "which paragraphs a selection touches depends on stored positions, lengths and the order of cells; the tests have one table at the end of the document", "anchors": ["crates/document_editing/src/use_cases/delete_text_uc.rs: execute_delete, clear_block", "crates/public_api/tests/copy_paste_tests.rs: delete_cross_cell_clears_cells"]}
{"id": "C94", "title": "A fragment as Markdown and back", "statement": "DocumentFragment::to_markdown gives Markdown that shows the same paragraphs, headings, list items and tables in the same order with the same text, marks and links, whatever characters the text contains; from_markdown of it gives a fragment with the same content.", "quantifier": "all fragments of paragraphs and tables, all texts, formats, list kinds and table positions", "why_tests_cant": "the text is any string, so every special character can meet every mark, list marker and table bar; the tests have a few fixed fragments", "anchors": ["crates/public_api/src/fragment.rs: to_markdown, escape_markdown, render_inline_markdown, render_table_markdown, from_markdown"]}
{"id": "C95", "title": "Markdown inserted at a position appears there, block by block", "statement": "insert_markdown_at_position puts the parsed blocks at the position: a block of text without paragraph formatting joins the text before or behind the caret, every other block becomes a paragraph with its text, formats, heading level and list; the rest of the document stays, the counts and the returned position are right, and undo gives back the document.", "quantifier": "all documents of one frame with right stored positions, all caret positions, all parsed contents (any mix of text, headings, list items, code blocks and tables, any spans)", "why_tests_cant": "how the first and the last block join the text around the caret depends on every mix of blocks, on where in the paragraph the caret is, and on what follows; the tests have some fixed contents", "anchors": ["crates/document_editing/src/use_cases/insert_markdown_at_position_uc.rs: execute_content_insert, undo", "crates/common/src/parser_tools/content_parser.rs: ParsedElement::flatten_to_blocks, is_inline_only"]}
{"id": "C96", "title": "HTML inserted at a position appears there, block by block", "statement": "insert_html_at_position puts the parsed blocks at the position as insert_markdown_at_position does, with line height, direction, background and breaking; a formatted first block at the start of a paragraph gives that paragraph its format, a formatted last block at the end of a paragraph leaves no empty paragraph; counts and the returned position are right, and undo gives back the document.", "quantifier": "all documents of one frame with right stored positions, all caret positions, all parsed contents (any mix of text, headings, list items, code blocks and tables, any spans)", "why_tests_cant": "how the first and the last block join the text around the caret depends on every mix of blocks, on where in the paragraph the caret is, and on what follows; the tests have some fixed contents", "anchors": ["crates/document_editing/src/use_cases/insert_html_at_position_uc.rs: execute_content_insert, undo", "crates/common/src/parser_tools/content_parser.rs: ParsedElement::flatten_to_blocks, is_inline_only"]}
{"id": "C97", "title": "A pasted fragment of paragraphs and tables appears at the caret, item by item", "statement": "insert_fragment with a fragment that holds paragraphs and tables puts them at the caret in their order: text before the caret stays in front, text behind the caret follows the last item, a first or last paragraph without paragraph formatting joins the text beside it, every other paragraph becomes one of its own and every table a table with its cells; counts are right, and undo gives back the document. Over a selection it is refused.", "quantifier": "all documents, all caret positions, all fragments with paragraphs and tables in any order", "why_tests_cant": "which paragraphs join, where each table is anchored in the text and how positions run on through the cells depends on every order of items and on the text around the caret; the tests paste a few fixed fragments", "anchors": ["crates/document_editing/src/use_cases/insert_fragment_uc.rs: insert_mixed_fragment, undo", "crates/common/src/database/rope_helpers.rs: rope_insert_table_anchor, rope_insert_block_at, rope_replace_block_content"]}
{"id": "C98", "title": "Formatting in documents with tables changes the selected characters and paragraphs only", "statement": "In a document with tables, set_char_format and merge_char_format on a selection, which may begin, end or lie in cells, give the fields to exactly the characters between its two ends in reading order, and set_block_format gives them to exactly the paragraphs the selection touches. Text, paragraphs, tables, cells, lists and counts stay.", "quantifier": "all documents with any tables anywhere, all selections, all formats", "why_tests_cant": "which paragraphs of which cells a selection takes in depends on every arrangement of tables and on the stored positions of the paragraphs of all frames; the tests format a few fixed texts without tables", "anchors": ["crates/document_formatting/src/use_cases/set_text_format_uc.rs: execute_set_text_format", "crates/document_formatting/src/use_cases/merge_text_format_uc.rs: execute_merge_text_format", "crates/document_formatting/src/use_cases/set_block_format_uc.rs: execute_set_block_format"]}
{"id": "C99", "title": "List commands in documents with tables change the lists of the meant paragraphs only", "statement": "In a document with tables, create_list makes a new list of exactly the paragraphs the selection touches, add_block_to_list and remove_block_from_list change the list of exactly the given paragraph, a list without items disappears, set_list_format changes exactly the given fields, and TextList reads the items in reading order, cells included. Text, formats, tables and the other lists stay.", "quantifier": "all documents with any tables anywhere, all selections, paragraphs, lists and formats", "why_tests_cant": "items can be spread over cells of any tables, so their order and numbers depend on every arrangement; the tests make lists in fixed texts without tables", "anchors": ["crates/document_editing/src/use_cases/create_list_uc.rs: execute_create_list", "crates/document_editing/src/use_cases/add_block_to_list_uc.rs: execute_add_block_to_list", "crates/document_editing/src/use_cases/remove_block_from_list_uc.rs: execute_remove_block_from_list", "crates/document_editing/src/use_cases/insert_list_uc.rs: execute_insert_list", "crates/document_formatting/src/use_cases/set_list_format_uc.rs: execute_set_list_format", "crates/public_api/src/text_list.rs: TextList"]}
{"id": "C100", "title": "Search and replace in documents with tables reach the text of cells and only change matches", "statement": "In a document with tables, find_all and find_text find exactly the occurrences of the query in the text in reading order, those in cells included, at the positions of the document. replace_text changes exactly the matches that lie in one paragraph or cell paragraph; everything else, the tables, formats and lists, stays, the character count follows the text and the stored positions are right. With replace_all off, only the first match changes.", "quantifier": "all documents with any tables anywhere, all queries and replacements, both directions, all start positions", "why_tests_cant": "a match moves every later paragraph and cell, so positions depend on every arrangement of tables and every number of matches; the tests replace in fixed texts without tables", "anchors": ["crates/document_search/src/use_cases/replace_text_uc.rs: execute_replace", "crates/document_search/src/use_cases/find_all_uc.rs: FindAllUseCase", "crates/document_search/src/use_cases/find_text_uc.rs: FindTextUseCase", "crates/document_search/src/use_cases/search_helpers.rs: find_all_matches"]}
{"id": "C101", "title": "Histories of calls on documents with tables do exactly what the calls say", "statement": "After any sequence of typing, typing over a selection, character and paragraph formatting, replacing, deleting, paragraph breaks, new tables and formats for tables and cells in a document with tables, the text in reading order (cells included), the formats and the tables are what the calls say, one after the other; the document counts its characters and paragraphs right, and its lists stay.", "quantifier": "all documents with any tables anywhere and all finite sequences of these calls, each made where it is meant to work", "why_tests_cant": "a call that leaves a stored position or count wrong shows only in a later call, so every sequence matters; the tests make one or two calls in fixed texts", "anchors": ["crates/document_editing/src/use_cases/insert_text_uc.rs: execute_insert_simple", "crates/document_editing/src/use_cases/insert_block_uc.rs: execute_insert_block", "crates/document_editing/src/use_cases/insert_table_uc.rs: execute_insert_table", "crates/document_formatting/src/use_cases/set_text_format_uc.rs: execute_set_text_format", "crates/document_search/src/use_cases/replace_text_uc.rs: execute_replace"]}
{"id": "C102", "title": "HTML export shows every paragraph and every table of a document with tables", "statement": "The page to_html gives for a document with tables can be read, and shows the paragraphs outside the tables in order with their marks and styles, and every table once, at its place between them: row by row the cells that begin there, each with the rows and columns it goes over and its lines of marked text.", "quantifier": "all documents with any number of tables anywhere, of any size, with any cells over several rows and columns, and any text and formats", "why_tests_cant": "the tests export one small table and look for substrings; whether a cell over several places shifts its row, text escapes its cell or a table is lost or repeated depends on all tables and texts together", "anchors": ["crates/document_io/src/use_cases/export_html_uc.rs: render_table_html", "crates/document_io/src/use_cases/export_html_uc.rs: render_frame_by_child_order", "crates/document_io/src/use_cases/export_html_uc.rs: execute", "crates/document_io/src/use_cases/export_latex_uc.rs: execute", "crates/document_io/src/use_cases/export_markdown_uc.rs: execute"]}
{"id": "C103", "title": "The plain text of a document with tables has every paragraph once, in reading order", "statement": "to_plain_text of a document with tables gives the texts of all paragraphs, those outside the tables and those in cells, each once, joined by newlines, in reading order.", "quantifier": "all documents with any number of tables anywhere, of any size, with any text in the cells and between the tables", "why_tests_cant": "the tests look for the words of one small table in the text; whether a paragraph is lost, repeated or out of order depends on all frames, their order and the stored positions together", "anchors": ["crates/document_io/src/use_cases/export_plain_text_uc.rs: execute"]}
{"id": "C104", "title": "Copying in a document with tables takes the selected text once", "statement": "Copying a selection of a document with tables gives, for each paragraph the selection touches, its selected characters with their formats, each once; the plain text of the copy is the selected text. This holds outside the tables and inside a cell.", "quantifier": "all documents with any number of tables anywhere, of any size, with any text in the cells and between the tables, and all selections", "why_tests_cant": "the tests copy from one or two small tables and look whether words are there; that nothing comes twice depends on every frame of the document, the order of the blocks and the cell each of them is in", "anchors": ["crates/document_inspection/src/use_cases/extract_fragment_uc.rs: execute, collect_block_ids_recursive_ro"]}
{"id": "C105", "title": "Copying across table cells takes each touched table whole and once", "statement": "Copying a selection that reaches across table cells, or from text into a table, gives the selected characters of the paragraphs outside the tables, each once and in order, and every table the selection touches, once, in order and whole: size, cells, spans, formats and the paragraphs in them with their formats and lists. Each table knows before which paragraph it stands, and the plain text has all these lines in reading order.", "quantifier": "all documents with any number of tables anywhere, of any size, with any text in the cells and between the tables, and all selections that touch two paragraphs which are neither both outside the tables nor both in one cell", "why_tests_cant": "the tests copy from one small table; that each table comes once and each paragraph once depends on all frames, on the order of the blocks and on which tables were met before", "anchors": ["crates/document_inspection/src/use_cases/extract_fragment_uc.rs: execute, extract_full_block, block_to_fragment_block"]}
{"id": "C106", "title": "A copied table looks the same where it is pasted", "statement": "A table copied by selecting across its cells and pasted elsewhere gives a table with the same rows and columns, the same formats and column widths, and cell by cell the same place, spans, formats and characters with the formats they show; it stands right behind the paragraph with the caret, everything else of the document stays, and undo brings the old document back.", "quantifier": "all documents the table is copied from, with any number of tables, and all selections across the cells of one table, of any size and with any text; all documents of paragraphs and all places in them to paste it", "why_tests_cant": "the tests copy and paste one or two small tables; that nothing of any table is lost depends on what copying puts in the fragment and what pasting reads from it, for every cell", "anchors": ["crates/document_inspection/src/use_cases/extract_fragment_uc.rs: execute", "crates/document_editing/src/use_cases/insert_fragment_uc.rs: execute"]}
{"id": "C107", "title": "Loading a plain text over any document leaves nothing of the old one", "statement": "Setting the plain text of a document replaces everything in it, whatever it held (tables, lists, images, nested frames): reading the text gives the new text, the statistics count its characters and paragraphs, one frame is left, and no table.", "quantifier": "all documents with any content whose frames exist, and all texts", "why_tests_cant": "the tests load over a new document or over paragraphs; that nothing is left depends on everything the old document can hold", "anchors": ["crates/document_io/src/use_cases/import_plain_text_uc.rs: execute", "crates/document_inspection/src/use_cases/get_document_stats_uc.rs: execute", "crates/public_api/src/document.rs: set_plain_text"]}
{"id": "C108", "title": "Saving an edited document as plain text and loading it gives its paragraphs back", "statement": "Reading the plain text of a document, however it was edited, and setting it as the text of the same or another document gives as many paragraphs, with the same texts in the same order, the character and paragraph counts of these, and the same plain text again.", "quantifier": "all documents of paragraphs (any formats, images and history), and all documents of paragraphs they are loaded into", "why_tests_cant": "the tests round-trip texts that were just loaded; here the saved document is any edited one, where a paragraph can hold what loading never puts there", "anchors": ["crates/document_io/src/use_cases/import_plain_text_uc.rs: execute", "crates/document_io/src/use_cases/export_plain_text_uc.rs: execute", "crates/document_editing/src/use_cases/insert_text_uc.rs: execute", "crates/public_api/src/cursor.rs: insert_text"]}
