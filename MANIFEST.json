{
 "claims": [
  {
   "property": "C01",
   "status": "proved",
   "theorems": [
    "Verif.C01_edit_keeps_wellFormed",
    "Verif.C01_history_keeps_wellFormed",
    "Verif.C01_from_scratch"
   ],
   "note": "Induction over every history of format changes, insertions, deletions, splits and joins of the span-table functions."
  },
  {
   "property": "C02",
   "status": "proved",
   "theorems": [
    "Verif.C02_format_range_exact",
    "Verif.C02_format_images_exact",
    "Verif.C02_set_fields",
    "Verif.C02_merge_fields"
   ],
   "note": "Pointwise over bytes and image anchors, for every well-formed table; field-wise merge of the two DTOs."
  },
  {
   "property": "C03",
   "status": "proved",
   "theorems": [
    "Verif.C03_insert_formats",
    "Verif.C03_insert_images",
    "Verif.C03_insert_images_ok"
   ],
   "note": "Pointwise over bytes and anchors."
  },
  {
   "property": "C04",
   "status": "proved",
   "theorems": [
    "Verif.C04_delete_formats",
    "Verif.C04_delete_images"
   ],
   "note": "Pointwise over bytes; anchors by an explicit filter-map."
  },
  {
   "property": "C05",
   "status": "proved",
   "theorems": [
    "Verif.C05_split_formats",
    "Verif.C05_join_formats",
    "Verif.C05_split_join_runs",
    "Verif.C05_split_join_images"
   ],
   "note": "Split and join pointwise; split followed by join is the identity on span tables and anchors."
  },
  {
   "property": "C06",
   "status": "partial",
   "theorems": [
    "Verif.C06_undo_restores_runs",
    "Verif.C06_no_inverse_no_change",
    "Verif.C06_undo_redo_partial",
    "Verif.C06_undo_images_fails"
   ],
   "note": "Exact for spans. For images the full claim is false (two images at one anchor offset: C06_undo_images_fails); proved when anchors inside the range are distinct."
  },
  {
   "property": "C07",
   "status": "partial",
   "theorems": [
    "Verif.C07_fragments_tile",
    "Verif.C07_fragments_text_and_images",
    "Verif.C07_document_fragments",
    "Verif.C07_inline_segments_partial",
    "Verif.C07_inline_segments_fails"
   ],
   "note": "Proved in full for TextBlock::fragments, and for both views of every image-free document. For the exporters' view inline_segments_view the claim is false when an image lies in a formatted span (C07_inline_segments_fails); proved otherwise."
  },
  {
   "property": "C08",
   "status": "partial",
   "theorems": [
    "Verif.C08_offset_meaning",
    "Verif.C08_offset_is_boundary",
    "Verif.C08_offset_monotone",
    "Verif.C08_offset_clamps",
    "Verif.C08_offset_plain",
    "Verif.C08_offset_with_image_fails"
   ],
   "note": "Boundary, monotonicity, clamping and meaning proved for all inputs; exact without images. With images the conversion counts an image twice (C08_offset_with_image_fails)."
  },
  {
   "property": "C09",
   "status": "proved",
   "theorems": [
    "Verif.C09_step_keeps_caches",
    "Verif.C09_history_keeps_caches",
    "Verif.C09_ranges",
    "Verif.C09_entries"
   ],
   "note": "All index operations, any history; the caller must not add a marker twice (fresh ids)."
  },
  {
   "property": "C10",
   "status": "proved",
   "theorems": [
    "Verif.C10_marker_at_byte",
    "Verif.C10_byte_to_marker_byte",
    "Verif.C10_document_index_ordered"
   ],
   "note": "The binary search is modelled by its contract on a sorted vector with distinct keys."
  },
  {
   "property": "C100",
   "status": "partial",
   "theorems": [
    "Verif.C100_find_all",
    "Verif.C100_find",
    "Verif.C100_replace_matches_partial",
    "Verif.C100_replace_all_partial",
    "Verif.C100_replace_one",
    "Verif.C100_between_cells_fails"
   ],
   "note": "Finding and replacing one in full for case-sensitive literal search in documents without images; other options by C100_replace_matches_partial for whatever the search gives (C34, C35 say what that is). Replacing all needs that matches in one paragraph do not overlap (C36_overlap_fails). A match across the end of a cell is found but not replaced (C100_between_cells_fails). Undo is C92."
  },
  {
   "property": "C101",
   "status": "partial",
   "theorems": [
    "Verif.C101_call",
    "Verif.C101_history",
    "Verif.C101_text"
   ],
   "note": "For documents without images and nested tables. The calls must be made where C67-C69, C98 and C100 say they work (TabCall.able): breaks and new tables outside tables, a selection to type over inside one paragraph or cell, no overlapping occurrences, deletions inside one paragraph or cell while no paragraph follows a table. Undo and lists are not calls of these histories (C92, C99). insert_formatted_text cannot be one of them: it leaves the stored positions wrong (C58_table_fails)."
  },
  {
   "property": "C102",
   "status": "partial",
   "theorems": [
    "Verif.C102_html_partial",
    "Verif.C102_one_paragraph",
    "Verif.C102_twice_fails",
    "Verif.C102_heading_in_cell_fails"
   ],
   "note": "Every table is exported twice, in its place and again after the last paragraph, because the frame that stands for a table is both listed in its parent frame and a frame of the document (C102_twice_fails, also for LaTeX and Markdown). Proved: exactly that page, for documents without images and nested tables, tables tiled by their cells, cells that list their paragraphs in order (always so for one paragraph, C102_one_paragraph). Empty paragraphs and headings of cells are lost (C102_heading_in_cell_fails)."
  },
  {
   "property": "C103",
   "status": "partial",
   "theorems": [
    "Verif.C103_plain_text_partial",
    "Verif.C103_nothing_lost",
    "Verif.C103_length",
    "Verif.C103_order_fails"
   ],
   "note": "The text is not in reading order: the paragraphs outside the tables come first, then the cells (C103_order_fails), so the positions of find_all and of cursors are not places in it. Proved: exactly that order, that every paragraph is there once (C103_nothing_lost) and the length of the text (C103_length). Documents with images, nested tables or sub-frames are not covered."
  },
  {
   "property": "C104",
   "status": "partial",
   "theorems": [
    "Verif.C104_outside_partial",
    "Verif.C104_cell_twice",
    "Verif.C104_word_in_cell",
    "Verif.C104_cell_fails"
   ],
   "note": "Inside a cell the claim is false: everything selected there is copied twice, because the blocks of a cell are collected once below the main frame and once more from the frame of the cell (C104_cell_fails; C104_cell_twice and C104_word_in_cell say so for every document). Outside the tables the claim is proved (C104_outside_partial). Selections that touch cells and text outside, or several cells, are in C105."
  },
  {
   "property": "C105",
   "status": "partial",
   "theorems": [
    "Verif.C105_across_partial",
    "Verif.C105_within",
    "Verif.C105_example",
    "Verif.C105_list_fails"
   ],
   "note": "Paragraphs in cells lose their list when they are copied with the table (C105_list_fails); all the rest is proved (C105_across_partial). C105_within links selections that do not cross to C63 and C104. Documents with images, nested tables or sub-frames are not covered."
  },
  {
   "property": "C106",
   "status": "partial",
   "theorems": [
    "Verif.C106_copy_paste_table_partial",
    "Verif.C106_heading_fails"
   ],
   "note": "Proved for cells with one paragraph each and a target without tables; what paragraphs in cells lose is their own format (C106_heading_fails) and, with several in a cell, all but the first (C85_two_paragraphs_fails)."
  },
  {
   "property": "C107",
   "status": "partial",
   "theorems": [
    "Verif.C107_load_over_partial",
    "Verif.C107_load_over_tables",
    "Verif.C107_tables_stay_fails",
    "Verif.C107_load_succeeds"
   ],
   "note": "Text, counts and frames are proved for every document; the tables of the old document stay in the store and are still counted (C107_tables_stay_fails). Loading succeeds whenever the lists of frames and documents point to existing entities (C107_load_succeeds), so always over documents of paragraphs and tables (C107_load_over_tables)."
  },
  {
   "property": "C108",
   "status": "partial",
   "theorems": [
    "Verif.C108_save_load_partial",
    "Verif.C108_typed_line_end_fails"
   ],
   "note": "Proved when no paragraph has a line end (LF or CR) in its text. Typing a text with a line end keeps it inside one paragraph, and then the loaded document has more paragraphs (C108_typed_line_end_fails). Documents with tables or nested frames are not covered."
  },
  {
   "property": "C11",
   "status": "proved",
   "theorems": [
    "Verif.C11_insert_in_paragraph",
    "Verif.C11_delete_in_paragraph",
    "Verif.C11_reading"
   ],
   "note": ""
  },
  {
   "property": "C12",
   "status": "partial",
   "theorems": [
    "Verif.C12_split",
    "Verif.C12_merge",
    "Verif.C12_remove",
    "Verif.C12_replace_partial",
    "Verif.C12_replace_fails",
    "Verif.C12_append_first",
    "Verif.C12_append",
    "Verif.C12_reset",
    "Verif.C12_append_empty_partial",
    "Verif.C12_append_empty_fails",
    "Verif.C12_insert_at_end_partial",
    "Verif.C12_insert_at_start_fails"
   ],
   "note": "Split, merge, remove, append, reset in full. The code fails, with proved witnesses, when replacing the content of a paragraph followed by one empty last paragraph, when appending an empty paragraph to an empty text, and when inserting a paragraph at the start byte of another."
  },
  {
   "property": "C13",
   "status": "partial",
   "theorems": [
    "Verif.C13_insert_before",
    "Verif.C13_insert_after_partial",
    "Verif.C13_insert_after_fails",
    "Verif.C13_append_partial",
    "Verif.C13_append_fails",
    "Verif.C13_remove_partial",
    "Verif.C13_remove_fails",
    "Verif.C13_remove_sole_fails",
    "Verif.C13_insert_before_remove",
    "Verif.C13_insert_after_remove_partial"
   ],
   "note": "Fails, with proved witnesses, next to an empty last paragraph."
  },
  {
   "property": "C14",
   "status": "partial",
   "theorems": [
    "Verif.C14_reading",
    "Verif.C14_step",
    "Verif.C14_history_partial"
   ],
   "note": "Any history of store operations outside the failing cases of C12/C13."
  },
  {
   "property": "C15",
   "status": "proved",
   "theorems": [
    "Verif.C15_position_resolves",
    "Verif.C15_total_and_clamped",
    "Verif.C15_own_position",
    "Verif.C15_declined"
   ],
   "note": ""
  },
  {
   "property": "C16",
   "status": "proved",
   "theorems": [
    "Verif.C16_insert_text_nested",
    "Verif.C16_insert_text",
    "Verif.C16_characters",
    "Verif.C16_plain_text"
   ],
   "note": "For documents without tables and images, any frames; positions outside the document count as the nearest inside."
  },
  {
   "property": "C17",
   "status": "proved",
   "theorems": [
    "Verif.C17_delete_text",
    "Verif.C17_characters",
    "Verif.C17_paragraphs",
    "Verif.C17_nothing_left"
   ],
   "note": "For documents of one frame without tables and images."
  },
  {
   "property": "C18",
   "status": "proved",
   "theorems": [
    "Verif.C18_insert_block",
    "Verif.C18_characters",
    "Verif.C18_paragraphs"
   ],
   "note": "For documents of one frame without tables and images."
  },
  {
   "property": "C19",
   "status": "proved",
   "theorems": [
    "Verif.C19_same_paragraph",
    "Verif.C19_type_over"
   ],
   "note": "For documents of one frame without tables and images; selections over several paragraphs through the cursor, which deletes and types in one group."
  },
  {
   "property": "C20",
   "status": "partial",
   "theorems": [
    "Verif.C20_undo_redo_partial",
    "Verif.C20_plain_text_partial",
    "Verif.C20_replace_partial",
    "Verif.C20_format_text_partial",
    "Verif.C20_block_format_partial",
    "Verif.C20_list_commands_partial",
    "Verif.C20_formatted_text_partial"
   ],
   "note": "For insert_text, insert_formatted_text, delete_text, insert_block, replace_text, set_block_format and the list commands on documents of one frame without tables and images, and for set/merge_text_format on any store with well-formed span tables and images at different offsets; redo of create_list gives the list a new id. Undo of all 29 editing commands in any document is C92."
  },
  {
   "property": "C21",
   "status": "proved",
   "theorems": [
    "Verif.C21_start",
    "Verif.C21_timeline",
    "Verif.C21_undo_redo_count",
    "Verif.C21_step_with_merging",
    "Verif.C21_empty",
    "Verif.C21_editing_session"
   ],
   "note": "For every command kind satisfying the contract of Spec/Timeline.lean, and (C21_editing_session) for sessions of typing, deleting and paragraph splitting through the cursor on the modelled store."
  },
  {
   "property": "C22",
   "status": "partial",
   "theorems": [
    "Verif.C22_add_clears_redo_partial",
    "Verif.C22_group_clears_redo",
    "Verif.C22_open_group_fails"
   ],
   "note": "Outside a group, and at the end of a group. While a group is open the redo list is kept (proved witness)."
  },
  {
   "property": "C23",
   "status": "partial",
   "theorems": [
    "Verif.C23_group_is_one_entry",
    "Verif.C23_group_is_one_step",
    "Verif.C23_cancel",
    "Verif.C23_other_stack_fails",
    "Verif.C23_inner_cancel_fails",
    "Verif.C23_deleted_stack_fails"
   ],
   "note": "Balanced nested groups in full. Three failing cases are proved: a group on another stack after a finished one is refused, cancelling an inner group closes the outer one, deleting the stack of an open group makes its end panic."
  },
  {
   "property": "C24",
   "status": "partial",
   "theorems": [
    "Verif.C24_failed_step_keeps_history",
    "Verif.C24_successful_step",
    "Verif.C24_group_half_undone_fails"
   ],
   "note": "The history lists are kept; the document itself may be half undone when a command inside a group fails (proved witness)."
  },
  {
   "property": "C25",
   "status": "proved",
   "theorems": [
    "Verif.C25_isolated",
    "Verif.C25_root_and_fresh",
    "Verif.C25_group_keeps_to_its_stack",
    "Verif.C25_clear_all"
   ],
   "note": ""
  },
  {
   "property": "C26",
   "status": "partial",
   "theorems": [
    "Verif.C26_merge_only_adjacent",
    "Verif.C26_merged_partial",
    "Verif.C26_type_over_fails",
    "Verif.C26_backspace_never_merged",
    "Verif.C26_backspace_fails"
   ],
   "note": "Holds unless the first command typed over a selection; then redo brings the selection back as well (proved witness). Backspace is never merged with Backspace, because the cursor passes its range in the order of Delete (C26_backspace_never_merged, C26_backspace_fails)."
  },
  {
   "property": "C27",
   "status": "proved",
   "theorems": [
    "Verif.C27_drop",
    "Verif.C27_rollback",
    "Verif.C27_commit",
    "Verif.C27_read",
    "Verif.C27_savepoint",
    "Verif.C27_undo_snapshot"
   ],
   "note": "Transactions over the whole store: rollback, drop without commit and read transactions leave every map, the text and the id counters as before; commit keeps the work; save points and undo snapshots restore the content they captured."
  },
  {
   "property": "C28",
   "status": "partial",
   "theorems": [
    "Verif.C28_ids_unique_partial",
    "Verif.C28_new_id_fresh_partial",
    "Verif.C28_savepoint_fails"
   ],
   "note": "Ids are unique over every history of transactions and undo snapshots. Restoring a save point inside a transaction (what undo of set_relationship/move_relationship does) rewinds the id counters: C28_savepoint_fails shows an id handed out twice."
  },
  {
   "property": "C29",
   "status": "proved",
   "theorems": [
    "Verif.C29_flush_publishes",
    "Verif.C29_discard_forgets",
    "Verif.C29_outside_dropped",
    "Verif.C29_abandoned_forgotten",
    "Verif.C29_hub",
    "Verif.C29_after_restore_fails"
   ],
   "note": "For every history of transactions the hub receives exactly the events of the committed ones, in order. Side finding: after restoring a save point the buffer stops recording (C29_after_restore_fails); no code pushes events there."
  },
  {
   "property": "C30",
   "status": "partial",
   "theorems": [
    "Verif.C30_poll_exactly_once",
    "Verif.C30_callback_exactly_once",
    "Verif.C30_callback_complete",
    "Verif.C30_dispatch_catches_up",
    "Verif.C30_callback_in_order_partial",
    "Verif.C30_callback_order_fails",
    "Verif.C30_delivered_dropped",
    "Verif.C30_never_polled_fails"
   ],
   "note": "Exactly-once on both channels for every schedule; order on the polling channel. Callback order holds for one non-reentrant dispatcher and fails otherwise; events are never dropped if nobody polls."
  },
  {
   "property": "C31",
   "status": "proved",
   "theorems": [
    "Verif.C31_before_stays",
    "Verif.C31_after_moves",
    "Verif.C31_inside_lands",
    "Verif.C31_order",
    "Verif.C31_in_document",
    "Verif.C31_all_cursors"
   ],
   "note": "All offsets and edits; cursors inside the removed stretch land after the inserted text."
  },
  {
   "property": "C32",
   "status": "partial",
   "theorems": [
    "Verif.C32_edit_correct",
    "Verif.C32_prefix_maximal",
    "Verif.C32_suffix_maximal",
    "Verif.C32_empty_iff",
    "Verif.C32_announced_partial",
    "Verif.C32_announced_fails",
    "Verif.C32_cursor_edit"
   ],
   "note": "The edit used for cursors is exact and maximal for all texts. The announced contents-changed event is right when no paragraph was created or removed, and wrong otherwise in general (C32_announced_fails)."
  },
  {
   "property": "C33",
   "status": "proved",
   "theorems": [
    "Verif.C33_flow_events",
    "Verif.C33_silent_iff",
    "Verif.C33_in_bounds",
    "Verif.C33_block_count"
   ],
   "note": "All pairs of lists."
  },
  {
   "property": "C34",
   "status": "partial",
   "theorems": [
    "Verif.C34_exact",
    "Verif.C34_whole_word",
    "Verif.C34_case_insensitive_partial",
    "Verif.C34_case_insensitive_fails",
    "Verif.C34_regex",
    "Verif.C34_empty_query",
    "Verif.C34_find_all"
   ],
   "note": "Exact for case-sensitive search and whole words, for every text and query. Case-insensitive search is exact when lowercasing keeps the length of each character and gives wrong positions otherwise (C34_case_insensitive_fails). Lowercasing, word segmentation and the regex engine are parameters."
  },
  {
   "property": "C35",
   "status": "proved",
   "theorems": [
    "Verif.C35_forward",
    "Verif.C35_backward",
    "Verif.C35_literal"
   ],
   "note": "Every match list and start position."
  },
  {
   "property": "C36",
   "status": "partial",
   "theorems": [
    "Verif.C36_replace_matches_partial",
    "Verif.C36_replace_all_partial",
    "Verif.C36_replace_one_partial",
    "Verif.C36_stale_positions_fails",
    "Verif.C36_overlap_fails"
   ],
   "note": "Proved for documents of one frame without tables and images whose stored paragraph positions are right (every freshly imported text, and kept by replacing) and whose matches do not overlap within a paragraph, for every search option; replace-one needs no condition on overlaps. Without these conditions the claim is false (two proved witnesses)."
  },
  {
   "property": "C37",
   "status": "proved",
   "theorems": [
    "Verif.C37_import",
    "Verif.C37_import_again",
    "Verif.C37_new_document"
   ],
   "note": "For documents of one frame without tables, as new() and every import make them."
  },
  {
   "property": "C38",
   "status": "partial",
   "theorems": [
    "Verif.C38_new_table",
    "Verif.C38_insert_row_partial",
    "Verif.C38_insert_column_partial",
    "Verif.C38_insert_row_fails",
    "Verif.C38_insert_column_fails",
    "Verif.C38_remove_row",
    "Verif.C38_remove_column",
    "Verif.C38_remove_refused",
    "Verif.C38_merge_partial",
    "Verif.C38_merge_fails",
    "Verif.C38_split",
    "Verif.C38_history_partial"
   ],
   "note": "Creation, removal and splitting keep the tiling always; row/column insertion when the line crosses no merged cell, merging when no merged cell enters the range; both exceptions break the tiling in the code (the _fails theorems). C38_history_partial: every sequence of careful edits."
  },
  {
   "property": "C39",
   "status": "proved",
   "theorems": [
    "Verif.C39_expand"
   ],
   "note": "Termination, containment, no cut cell, and minimality for every range and cell list."
  },
  {
   "property": "C40",
   "status": "proved",
   "theorems": [
    "Verif.C40_roman",
    "Verif.C40_decimal",
    "Verif.C40_alpha",
    "Verif.C40_distinct",
    "Verif.C40_index"
   ],
   "note": "Roman markers read back to the item number, decimal and alphabetic markers determine it, the marker determines the item within a list, and the item number is the rank of the paragraph in its list."
  },
  {
   "property": "C41",
   "status": "proved",
   "theorems": [
    "Verif.C41_distinct",
    "Verif.C41_no_entity",
    "Verif.C41_large_ids_fails"
   ],
   "note": "Proved for paragraph ids below 2^30, the stated range; C41_large_ids_fails shows the bound is needed."
  },
  {
   "property": "C42",
   "status": "proved",
   "theorems": [
    "Verif.C42_overlay",
    "Verif.C42_text_kept"
   ],
   "note": "Each character is shown with its own format overlaid by the last span that sets the field; the text and images are kept."
  },
  {
   "property": "C43",
   "status": "partial",
   "theorems": [
    "Verif.C43_incremental_partial",
    "Verif.C43_new_paragraph_fails",
    "Verif.C43_affected"
   ],
   "note": "Proved when every paragraph after the edited one was highlighted before; C43_new_paragraph_fails exhibits the stale result after a split."
  },
  {
   "property": "C44",
   "status": "proved",
   "theorems": [
    "Verif.C44_groups",
    "Verif.C44_groups_from"
   ],
   "note": "The list grouper puts two imported items into one list exactly when the specification joins them."
  },
  {
   "property": "C45",
   "status": "partial",
   "theorems": [
    "Verif.C45_html",
    "Verif.C45_latex",
    "Verif.C45_distinct",
    "Verif.C45_markdown_partial",
    "Verif.C45_markdown_fails"
   ],
   "note": "HTML and LaTeX escaping is proved to read back; Markdown only for text without the characters the exporter leaves unescaped."
  },
  {
   "property": "C46",
   "status": "partial",
   "theorems": [
    "Verif.C46_ids",
    "Verif.C46_final_partial",
    "Verif.C46_cancelled_changes_fails",
    "Verif.C46_late_cancel_fails",
    "Verif.C46_reported",
    "Verif.C46_ends",
    "Verif.C46_panic_fails",
    "Verif.C46_result",
    "Verif.C46_result_stored",
    "Verif.C46_cancel",
    "Verif.C46_cleanup",
    "Verif.C46_events"
   ],
   "note": "Every interleaving of callers and worker threads. The claim fails for a cancellation that overtakes the end of the worker and for an operation that panics; both are proved, and everything else is proved."
  },
  {
   "property": "C47",
   "status": "partial",
   "theorems": [
    "Verif.C47_life_partial",
    "Verif.C47_replace_partial",
    "Verif.C47_new_document_fails"
   ],
   "note": "Every history of imports, typing, deleting, paragraph splits, undo and redo after a first import; typing right after a replaced selection must come two seconds later (else C26_type_over_fails). Without a first import the paragraph count is one short (proved witness). replace_text is covered as one step from any such document (matches not overlapping), not inside histories."
  },
  {
   "property": "C48",
   "status": "proved",
   "theorems": [
    "Verif.C48_text_at",
    "Verif.C48_text_at_limits",
    "Verif.C48_block_at",
    "Verif.C48_block_at_limits"
   ],
   "note": "For every document without tables, images and nested frames. The end of a non-empty paragraph that is followed by another one belongs to the following paragraph, as the code intends."
  },
  {
   "property": "C49",
   "status": "partial",
   "theorems": [
    "Verif.C49_set_text_format_partial",
    "Verif.C49_merge_text_format_partial",
    "Verif.C49_format_keeps_text",
    "Verif.C49_stale_positions_fails"
   ],
   "note": "Proved for documents of one frame without tables and images whose stored paragraph positions are right (every freshly imported text; kept by formatting); that text, counts and paragraphs stay is proved for any stored positions. With stale stored positions the claim is false (proved witness)."
  },
  {
   "property": "C50",
   "status": "partial",
   "theorems": [
    "Verif.C50_set_block_format_partial",
    "Verif.C50_fields",
    "Verif.C50_caret_at_end_fails"
   ],
   "note": "Proved for documents of one frame without tables and images whose stored positions are right, for selections not starting at the end of a paragraph with text; a caret there formats nothing (proved witness). The fields are proved for every block."
  },
  {
   "property": "C51",
   "status": "partial",
   "theorems": [
    "Verif.C51_set_reads_back_partial",
    "Verif.C51_set_drops_fields_fails",
    "Verif.C51_merge_reads_back_partial",
    "Verif.C51_merge_drops_fields_fails",
    "Verif.C51_block_reads_back_partial",
    "Verif.C51_block_drops_tabs_fails"
   ],
   "note": "Proved for the fields the conversions pass on; the others are dropped silently (three proved witnesses). line_height (f32) is not modelled."
  },
  {
   "property": "C52",
   "status": "partial",
   "theorems": [
    "Verif.C52_set_position",
    "Verif.C52_set_position_exact",
    "Verif.C52_move_stays",
    "Verif.C52_select_stays",
    "Verif.C52_type",
    "Verif.C52_enter",
    "Verif.C52_delete_selection",
    "Verif.C52_step_partial",
    "Verif.C52_history_partial",
    "Verif.C52_undo_fails",
    "Verif.C52_cursor_at_fails",
    "Verif.C52_new_document_fails"
   ],
   "note": "Every history of calls other than undo, redo and cursor_at beyond the start, on documents loaded once. Undo leaves cursors beyond the end, cursor_at does not clamp, and in a never-loaded document the last place cannot be reached (proved witnesses). Documents of one frame without tables and images."
  },
  {
   "property": "C53",
   "status": "proved",
   "theorems": [
    "Verif.C53_next_character",
    "Verif.C53_previous_character",
    "Verif.C53_there_and_back",
    "Verif.C53_delete_char",
    "Verif.C53_backspace"
   ],
   "note": "For every segmentation that covers the text, is stable under cutting and keeps newlines apart (Segmenter.Lawful, with a proved instance). Documents of one frame without tables and images."
  },
  {
   "property": "C54",
   "status": "partial",
   "theorems": [
    "Verif.C54_paragraph_partial",
    "Verif.C54_next_paragraph_partial",
    "Verif.C54_previous_paragraph_partial",
    "Verif.C54_at_paragraph_end_fails",
    "Verif.C54_empty_paragraphs_fails"
   ],
   "note": "At every position other than the end of a paragraph with text and a successor; there the code takes the next paragraph (proved witness). Previous block also needs one of the two preceding paragraphs non-empty (proved witness). Documents of one frame without tables and images."
  },
  {
   "property": "C55",
   "status": "partial",
   "theorems": [
    "Verif.C55_select_word",
    "Verif.C55_select_nothing_partial",
    "Verif.C55_next_word_inside",
    "Verif.C55_next_word_outside_partial",
    "Verif.C55_previous_word_inside",
    "Verif.C55_previous_word_outside_partial",
    "Verif.C55_previous_word_fails",
    "Verif.C55_next_word_fails",
    "Verif.C55_select_word_end_fails"
   ],
   "note": "From inside a word without restriction. From outside, next word when the first letter, digit or underscore of the next 64 characters is in a word, previous word within the paragraph; otherwise the cursor can be stuck (proved witnesses). Documents of one frame without tables and images."
  },
  {
   "property": "C56",
   "status": "partial",
   "theorems": [
    "Verif.C56_selected_text",
    "Verif.C56_select_all",
    "Verif.C56_block_format_partial",
    "Verif.C56_char_format_partial"
   ],
   "note": "selected_text in full; the formats at every position other than the end of a paragraph with text and a successor, where those of the next paragraph are read (C54_at_paragraph_end_fails). Documents of one frame without tables and images."
  },
  {
   "property": "C57",
   "status": "partial",
   "theorems": [
    "Verif.C57_create_list_partial",
    "Verif.C57_add_to_list",
    "Verif.C57_add_absent",
    "Verif.C57_remove_from_list",
    "Verif.C57_remove_absent",
    "Verif.C57_set_list_format",
    "Verif.C57_items",
    "Verif.C57_number",
    "Verif.C57_history",
    "Verif.C57_stale_positions_fails",
    "Verif.C57_insert_list_fails",
    "Verif.C57_move_leaves_empty_list_fails"
   ],
   "note": "create_list when the stored paragraph positions are right, otherwise it takes other paragraphs (proved witness); insert_list adds a paragraph that is not in the text (proved witness). Documents of one frame without tables and images."
  },
  {
   "property": "C58",
   "status": "partial",
   "theorems": [
    "Verif.C58_characters",
    "Verif.C58_insert_formatted",
    "Verif.C58_cursor",
    "Verif.C58_plain_text",
    "Verif.C58_format_partial",
    "Verif.C58_format_fails",
    "Verif.C58_empty_text_fails",
    "Verif.C58_beyond_end_fails",
    "Verif.C58_table_fails"
   ],
   "note": "Every non-empty text and every selection; an empty text leaves an empty span, a position beyond the end returns a wrong position, and the fields not set by the caller are set to empty values (proved witnesses). Documents of one frame without tables and images. In documents with tables the stored positions of later paragraphs are not moved, so that later commands go wrong (C58_table_fails)."
  },
  {
   "property": "C59",
   "status": "partial",
   "theorems": [
    "Verif.C59_html_page_partial",
    "Verif.C59_html_any_lists",
    "Verif.C59_html_text_partial",
    "Verif.C59_color_fails",
    "Verif.C59_lists_merge_fails",
    "Verif.C59_code_item_fails"
   ],
   "note": "The page is read back by an independent HTML reader. Needs background colours without quotes, semicolons, ampersands or carriage returns (they are not escaped), no code block inside a list and no numbered list right next to a bulleted one (proved witnesses); without the list hypotheses the page is characterised exactly and its text is still the text. Documents of one frame without tables and images."
  },
  {
   "property": "C60",
   "status": "partial",
   "theorems": [
    "Verif.C60_insert_frame_partial",
    "Verif.C60_undo_partial",
    "Verif.C60_not_in_text_fails",
    "Verif.C60_exported_twice_fails"
   ],
   "note": "The new frame, its paragraph and everything that stays are characterised, and undo is exact, for one-frame documents with right stored positions. The last clause is false: the new paragraph is last in the plain text, text typed there is lost though counted, and exporters write the content of the frame twice (proved witnesses)."
  },
  {
   "property": "C61",
   "status": "partial",
   "theorems": [
    "Verif.C61_stats_partial",
    "Verif.C61_image_is_a_word_fails",
    "Verif.C61_stats_tables_partial"
   ],
   "note": "Exact for documents of one frame without tables and images; an image alone between blanks is counted as a word (proved witness). The character and paragraph counters are C47. C61_stats_tables_partial: documents with tables."
  },
  {
   "property": "C62",
   "status": "partial",
   "theorems": [
    "Verif.C62_insert_image_partial",
    "Verif.C62_undo_partial",
    "Verif.C62_refused",
    "Verif.C62_unreadable_fails",
    "Verif.C62_image_stays_fails",
    "Verif.C62_order",
    "Verif.C62_anchor_fails"
   ],
   "note": "What is inserted and what stays is exact for paragraphs without images in one-frame documents; formats when nothing behind the caret is formatted. Otherwise the span table is left behind and reading or exporting the document panics; an image is read twice and deleting its position does not delete it (proved witnesses). The order of images in a paragraph is proved for every store (C62_order); later anchors are not moved on (C62_anchor_fails)."
  },
  {
   "property": "C63",
   "status": "partial",
   "theorems": [
    "Verif.C63_copy_partial",
    "Verif.C63_empty",
    "Verif.C63_stale_fails",
    "Verif.C63_newline_fails"
   ],
   "note": "One frame, no images, right stored positions. False without the last (C63_stale_fails: after typing in an earlier paragraph, copying a later one gives nothing); the end of paragraph that closes a selection is lost (C63_newline_fails)."
  },
  {
   "property": "C64",
   "status": "partial",
   "theorems": [
    "Verif.C64_inline_partial",
    "Verif.C64_many_partial",
    "Verif.C64_over_partial",
    "Verif.C64_between_partial",
    "Verif.C64_undo_partial",
    "Verif.C64_refused",
    "Verif.C64_count_fails",
    "Verif.C64_between_fails",
    "Verif.C64_over_fails",
    "Verif.C64_prefix_fails"
   ],
   "note": "Text, formats, lists and undo proved for fragments of text (no images, no tables) in one frame with right stored positions. Counts, caret and stored positions proved where right and stated exactly where wrong (the _fails theorems). Lists are shared by the rule of C44, beginning with the list at the caret (SharedMany)."
  },
  {
   "property": "C65",
   "status": "partial",
   "theorems": [
    "Verif.C65_copy_paste_partial",
    "Verif.C65_whole_paragraph_partial",
    "Verif.C65_image_fails"
   ],
   "note": "First theorem: every paragraph taken whole is unformatted (otherwise C64's formatted paths apply). One frame, no images (C65_image_fails: a copied image is pasted with one object character too many), right stored positions."
  },
  {
   "property": "C66",
   "status": "partial",
   "theorems": [
    "Verif.C66_blocks",
    "Verif.C66_handle",
    "Verif.C66_absent",
    "Verif.C66_snapshot",
    "Verif.C66_flow",
    "Verif.C66_at_position",
    "Verif.C66_in_range",
    "Verif.C66_char_format",
    "Verif.C66_element_partial",
    "Verif.C66_element_fails",
    "Verif.C66_frame_positions_fails"
   ],
   "note": "Proved for documents of one frame without tables and images. find_element_at_position does not do what its documentation says at the end of a paragraph and between two elements (C66_element_fails); the snapshot of a frame counts from its own start (C66_frame_positions_fails)."
  },
  {
   "property": "C67",
   "status": "partial",
   "theorems": [
    "Verif.C67_insert_table",
    "Verif.C67_insert_table_refused",
    "Verif.C67_insert_in_cell_fails",
    "Verif.C67_insert_in_cell_partial"
   ],
   "note": "Proved for a caret outside tables, in documents that have any tables already. With the caret in a cell the command can leave the text index out of order (C67_insert_in_cell_fails); the cases in which a caret in a cell works are not covered. Outside tables in full, in documents that have any tables already. In a cell the table goes behind the table of the cell (C67_insert_in_cell_partial); this needs cells that name the frame of their table as parent, which those added with a row or column do not, and it fails in an empty paragraph that comes last in the stored text (C67_insert_in_cell_fails)."
  },
  {
   "property": "C68",
   "status": "partial",
   "theorems": [
    "Verif.C68_insert_text",
    "Verif.C68_undo_fails",
    "Verif.C68_type_over",
    "Verif.C68_type_across"
   ],
   "note": "Proved for a caret without a selection, at every position. Undo does not bring the stored positions of later paragraphs back (C68_undo_fails). Typing over a selection inside a paragraph or cell is proved in full (C68_type_over); insert_text refuses one over several (C68_type_across), which the cursor turns into a deletion and an insertion (C69)."
  },
  {
   "property": "C69",
   "status": "partial",
   "theorems": [
    "Verif.C69_insert_block_partial",
    "Verif.C69_break_in_cell_fails",
    "Verif.C69_delete_fails",
    "Verif.C69_delete_partial"
   ],
   "note": "Proved for breaks in every paragraph outside the tables and, when no paragraph follows a table, for deleting inside any paragraph, in cells too (C69_delete_partial). Missing: deleting across paragraphs. In a cell a break moves the rest of the paragraph to the end of the document (C69_break_in_cell_fails). Deleting is wrong as soon as a paragraph follows a table (C69_delete_fails)."
  },
  {
   "property": "C70",
   "status": "partial",
   "theorems": [
    "Verif.C70_text_at",
    "Verif.C70_text_at_limits",
    "Verif.C70_block_at",
    "Verif.C70_set_position",
    "Verif.C70_set_position_exact",
    "Verif.C70_move_stays",
    "Verif.C70_select_stays",
    "Verif.C70_next_character",
    "Verif.C70_previous_character",
    "Verif.C70_there_and_back",
    "Verif.C70_paragraph_partial",
    "Verif.C70_next_paragraph_partial",
    "Verif.C70_previous_paragraph_partial",
    "Verif.C70_select_word",
    "Verif.C70_select_nothing_partial",
    "Verif.C70_next_word_inside",
    "Verif.C70_next_word_outside_partial",
    "Verif.C70_previous_word_inside",
    "Verif.C70_previous_word_outside_partial",
    "Verif.C70_selected_text",
    "Verif.C70_select_all",
    "Verif.C70_block_format_partial",
    "Verif.C70_char_format_partial"
   ],
   "note": "Proved with the same scope as C52-C56 (MoveAnchor; the limits of the word and paragraph theorems are those named there); the document's counts are assumed right (Counted), as after import, typing, breaks and insert_table. Extending a selection is C71."
  },
  {
   "property": "C71",
   "status": "partial",
   "theorems": [
    "Verif.C71_cell_at",
    "Verif.C71_select_together",
    "Verif.C71_select_into",
    "Verif.C71_select_into_last",
    "Verif.C71_move_together",
    "Verif.C71_select_out_fails"
   ],
   "note": "Proved for both ends in tables, both outside, and from outside into a table. From inside a table out of it the cursor jumps to the other side of the table, away from the requested position (C71_select_out_fails)."
  },
  {
   "property": "C72",
   "status": "partial",
   "theorems": [
    "Verif.C72_blocks",
    "Verif.C72_handle",
    "Verif.C72_home",
    "Verif.C72_absent",
    "Verif.C72_snapshot",
    "Verif.C72_at_position",
    "Verif.C72_in_range",
    "Verif.C72_char_format",
    "Verif.C72_element_partial",
    "Verif.C72_flow",
    "Verif.C72_flow_snapshot",
    "Verif.C72_table",
    "Verif.C72_cell",
    "Verif.C72_table_snapshot"
   ],
   "note": "find_element_at_position has the limits of C66 (C72_element_partial); TextTable::snapshot gives the cells in the order of the table's list of cells, which is not promised to be the reading order."
  },
  {
   "property": "C73",
   "status": "partial",
   "theorems": [
    "Verif.C73_table_format",
    "Verif.C73_cell_format",
    "Verif.C73_frame_format_partial",
    "Verif.C73_frame_position_fails",
    "Verif.C73_absent",
    "Verif.C73_current"
   ],
   "note": "All but the position of a frame, which set_frame_format drops (C73_frame_position_fails)."
  },
  {
   "property": "C74",
   "status": "partial",
   "theorems": [
    "Verif.C74_explicit",
    "Verif.C74_text",
    "Verif.C74_cells",
    "Verif.C74_mixed",
    "Verif.C74_outside",
    "Verif.C74_around",
    "Verif.C74_selected_cells",
    "Verif.C74_select_range",
    "Verif.C74_current",
    "Verif.C74_current_refused",
    "Verif.C74_merge_selected_partial",
    "Verif.C74_merge_selected_fails",
    "Verif.C74_inserted_sound",
    "Verif.C74_selected"
   ],
   "note": "All but merging when the anchor is at the end of a paragraph of its cell, where merge_selected_cells looks the anchor up in the next cell (C74_merge_selected_fails)."
  },
  {
   "property": "C75",
   "status": "partial",
   "theorems": [
    "Verif.C75_new_ready",
    "Verif.C75_import",
    "Verif.C75_import_tabled",
    "Verif.C75_import_flat",
    "Verif.C75_loads",
    "Verif.C75_history_fails",
    "Verif.C75_leftovers_fails",
    "Verif.C75_opening_fails",
    "Verif.C75_ragged_fails"
   ],
   "note": "The content, for rectangular tables and documents that do not open with an empty paragraph before a table (C75_ragged_fails, C75_opening_fails). The history is not cleared (C75_history_fails) and tables and lists of the old document stay (C75_leftovers_fails). The theorems start from the parsed elements."
  },
  {
   "property": "C76",
   "status": "partial",
   "theorems": [
    "Verif.C76_parse",
    "Verif.C76_load",
    "Verif.C76_nested_fails",
    "Verif.C76_heading_break_fails",
    "Verif.C76_tight_fails",
    "Verif.C76_items_fails"
   ],
   "note": "For every tree in which no mark is inside the same mark, headings have no forced break and the text of a tight list item is followed by lists only; outside of this the claim is false (the four _fails theorems). The parser library (pulldown_cmark) is not modelled: its events are taken to be those of a tree."
  },
  {
   "property": "C77",
   "status": "partial",
   "theorems": [
    "Verif.C77_texts",
    "Verif.C77_parse",
    "Verif.C77_inline",
    "Verif.C77_load",
    "Verif.C77_space_fails",
    "Verif.C77_break_fails",
    "Verif.C77_order_fails",
    "Verif.C77_items_fails",
    "Verif.C77_table_fails",
    "Verif.C77_deep_fails"
   ],
   "note": "C77_texts holds for every tree of height at most 128 (texts in tables count only inside cells, with the formats inside the cell). C77_parse holds for trees without white space between blocks, without br, without empty paragraphs and items and with an item's text directly in the item; outside of this the claim is false (the six _fails theorems). The HTML parser library and the parsing of style attributes are not modelled: the tree is the input."
  },
  {
   "property": "C78",
   "status": "partial",
   "theorems": [
    "Verif.C78_latex_partial",
    "Verif.C78_latex_any_lists",
    "Verif.C78_latex_text_partial",
    "Verif.C78_empty_fails",
    "Verif.C78_item_fails",
    "Verif.C78_code_fails",
    "Verif.C78_color_fails",
    "Verif.C78_lists_fails",
    "Verif.C78_levels_fails",
    "Verif.C78_package_fails",
    "Verif.C78_quote_fails"
   ],
   "note": "For documents of one frame without tables and images whose items do not begin with a bracket or a space, whose code has no \\end{verbatim}, whose colours are plain and in which adjacent items agree in kind; outside of this the claim is false (the _fails theorems). Tables are modelled but have no theorem yet; the notation of a line height is a parameter."
  },
  {
   "property": "C79",
   "status": "partial",
   "theorems": [
    "Verif.C79_markdown_partial",
    "Verif.C79_roundtrip_partial",
    "Verif.C79_same_partial",
    "Verif.C79_backtick_fails",
    "Verif.C79_html_fails",
    "Verif.C79_empty_fails",
    "Verif.C79_marks_fails",
    "Verif.C79_link_fails",
    "Verif.C79_underline_fails",
    "Verif.C79_lists_fails",
    "Verif.C79_code_fails",
    "Verif.C79_quote_fails"
   ],
   "note": "For documents of one frame without tables and images that fit Markdown (MdFit: no backtick and no `<x` or `&x` in the text, no white space at the ends of a paragraph, at every change of format one side unmarked and the mark not against the flanking rules, plain link destinations, no fence inside code, items not indented, headings not items); outside of this the claim is false (the _fails theorems). Empty paragraphs are left out. The step from text to Markdown tree is the specification's own reader (a part of CommonMark); pulldown-cmark itself is not modelled."
  },
  {
   "property": "C80",
   "status": "partial",
   "theorems": [
    "Verif.C80_plain",
    "Verif.C80_elements",
    "Verif.C80_insert_partial",
    "Verif.C80_insert_plain_partial",
    "Verif.C80_insert_markup_partial",
    "Verif.C80_insert_blocks_partial",
    "Verif.C80_markdown_partial",
    "Verif.C80_html_partial",
    "Verif.C80_new",
    "Verif.C80_code_fails",
    "Verif.C80_quote_fails",
    "Verif.C80_table_text_fails"
   ],
   "note": "What fragments hold is proved for every parsed text, with tables. Insertion is for documents of one frame without images whose stored positions are right, without a selection, and for fragments without tables. A code block and a quotation lose what they are (C80_code_fails, C80_quote_fails), the plain text leaves tables out (C80_table_text_fails)."
  },
  {
   "property": "C81",
   "status": "partial",
   "theorems": [
    "Verif.C81_html_partial",
    "Verif.C81_inline_partial",
    "Verif.C81_plain",
    "Verif.C81_styles_fails",
    "Verif.C81_table_fails",
    "Verif.C81_tables_partial"
   ],
   "note": "For fragments without images. Line height, direction, background, code blocks and nesting of lists are not written (C81_styles_fails), and a table inside a list is put behind the list (C81_table_fails).  C81_tables_partial: fragments with tables, read by a reader of tables (Spec/HtmlTables.lean): every table once, its cells, spans and lines."
  },
  {
   "property": "C82",
   "status": "partial",
   "theorems": [
    "Verif.C82_insert_row_partial",
    "Verif.C82_insert_column_partial",
    "Verif.C82_remove_row_partial",
    "Verif.C82_remove_column_partial",
    "Verif.C82_merge_partial",
    "Verif.C82_split_partial",
    "Verif.C82_refused",
    "Verif.C82_inserted",
    "Verif.C82_only_document",
    "Verif.C82_insert_row_positions_fails",
    "Verif.C82_remove_row_counts_fails",
    "Verif.C82_merge_text_fails",
    "Verif.C82_remove_table_partial",
    "Verif.C82_insert_remove_partial",
    "Verif.C82_remove_table_counts_fails"
   ],
   "note": "Insertions are for lines that no merged cell crosses (C38_insert_row_fails). Stored positions and the number of characters are right afterwards only if the cells of the table are empty (C82_insert_row_positions_fails, C82_remove_row_counts_fails). Merging loses the texts of the other cells (C82_merge_text_fails). Removing a whole table needs that something other than its cells follows it in the stored text or that no other paragraph is empty (C13_remove_fails); text in its cells leaves wrong counts (C82_remove_table_counts_fails)."
  },
  {
   "property": "C83",
   "status": "partial",
   "theorems": [
    "Verif.C83_properties",
    "Verif.C83_resource_partial",
    "Verif.C83_resource_unique",
    "Verif.C83_just_added",
    "Verif.C83_last_added_fails"
   ],
   "note": "Of several resources with one name an older one can be given after undo, a reading and redo (C83_last_added_fails); C83_resource_partial says that it is always one that was added under the name and not undone. The base64 crate enters as a hypothesis: decoding gives back what was encoded."
  },
  {
   "property": "C84",
   "status": "partial",
   "theorems": [
    "Verif.C84_text_partial",
    "Verif.C84_read_twice",
    "Verif.C84_modified",
    "Verif.C84_unmodified",
    "Verif.C84_read_during_import_fails"
   ],
   "note": "C84_text_partial is for schedules in which nothing is read between the start and the end of a Markdown or HTML import, because the kept text is dropped when the import starts and not when it is done (C84_read_during_import_fails). That the exported text is right is C37, C47, C75."
  },
  {
   "property": "C85",
   "status": "partial",
   "theorems": [
    "Verif.C85_paste_table_partial",
    "Verif.C85_replaced_text",
    "Verif.C85_replace_cell_fails",
    "Verif.C85_two_paragraphs_fails",
    "Verif.C85_positions_fails",
    "Verif.C85_place_after_table_fails",
    "Verif.C85_place_after_enter_fails",
    "Verif.C85_on_cells_partial"
   ],
   "note": "C85_paste_table_partial is for documents without a table, cells of at most one paragraph, and a paragraph whose place in the order of creation is its place in the document; the negative theorems show each of these is needed. Replacing the content of cells does not change the text of the document at all (C85_replaced_text, for every document). Wrong stored positions: C85_positions_fails.  C85_on_cells_partial: a table pasted on the cells of another gives its formats, and only those, to the cells at the same place from the caret."
  },
  {
   "property": "C86",
   "status": "partial",
   "theorems": [
    "Verif.C86_docx_partial",
    "Verif.C86_place_fails",
    "Verif.C86_order_fails",
    "Verif.C86_span_fails",
    "Verif.C86_heading_in_cell_fails"
   ],
   "note": "C86_docx_partial is for every document with or without tables whose stored positions are right and whose tables are sound (cells tile the grid); the negative theorems show the tables come last, in order of creation, rows under a cell spanning rows and columns are short, and headings in cells are lost. Images and the bytes docx-rs writes are not covered."
  },
  {
   "property": "C87",
   "status": "partial",
   "theorems": [
    "Verif.C87_remove",
    "Verif.C87_missing",
    "Verif.C87_child_order_fails"
   ],
   "note": "C87_remove holds for every store whose references are valid and covers all relationships and the order of a frame's paragraphs. C87_child_order_fails: the entry for a removed frame stays in its parent's child order. The text of removed paragraphs stays in the rope (Forgot.rope)."
  },
  {
   "property": "C88",
   "status": "partial",
   "theorems": [
    "Verif.C88_history_partial",
    "Verif.C88_redo_set_fails",
    "Verif.C88_ids_again_fails",
    "Verif.C88_no_document_fails",
    "Verif.C88_adopted_fails"
   ],
   "note": "C88_history_partial: new entities come without id and own nothing yet; setting and moving relationships are left out, because they cannot be redone twice (C88_redo_set_fails) and their undo takes back the id counters (C88_ids_again_fails). Creating an empty list of documents removes the document for good (C88_no_document_fails); undoing the creation of a frame that adopts paragraphs removes them (C88_adopted_fails)."
  },
  {
   "property": "C89",
   "status": "partial",
   "theorems": [
    "Verif.C89_error",
    "Verif.C89_valid",
    "Verif.C89_set_refused",
    "Verif.C89_move_dangling_fails",
    "Verif.C89_update_dangling_fails",
    "Verif.C89_id_in_use"
   ],
   "note": "Nothing is missing for the calls named; C89_move_dangling_fails and C89_update_dangling_fails show that moving within a relationship, updating with relationships and creating entities with relationships check nothing. Creating with an id in use, or two entities with one id, is refused."
  },
  {
   "property": "C90",
   "status": "proved",
   "theorems": [
    "Verif.C90_read",
    "Verif.C90_create",
    "Verif.C90_set",
    "Verif.C90_move",
    "Verif.C90_update"
   ],
   "note": ""
  },
  {
   "property": "C91",
   "status": "partial",
   "theorems": [
    "Verif.C91_command",
    "Verif.C91_new",
    "Verif.C91_load",
    "Verif.C91_history_partial",
    "Verif.C91_undo_after_load_fails"
   ],
   "note": "C91_command: 30 commands on any store in good order. C91_history_partial: all histories in which Markdown and HTML are loaded only while nothing can be undone; otherwise it is false (C91_undo_after_load_fails): set_markdown and set_html keep the history, and undoing a format writes format runs for a paragraph that is gone."
  },
  {
   "property": "C92",
   "status": "partial",
   "theorems": [
    "Verif.C92_undo",
    "Verif.C92_undo_exact",
    "Verif.C92_history_partial"
   ],
   "note": "C92_undo_exact: 27 commands, and typing over a selection, restore everything, without condition. Typing without a selection restores everything but the positions stored with later paragraphs (C68_undo_fails) and needs the text index in order; character formats need sound span tables and images at different places (C06_undo_images_fails). C92_history_partial: merged typing must go on where the earlier typing ended, and Markdown and HTML be loaded while nothing can be undone. A redo is a new run of the command; that it gives the same is C20, C38, C64 and others."
  },
  {
   "property": "C93",
   "status": "partial",
   "theorems": [
    "Verif.C93_elsewhere",
    "Verif.C93_behind_fails",
    "Verif.C93_next_cell_fails",
    "Verif.C93_table_fails",
    "Verif.C93_next_deletion_fails",
    "Verif.C93_next_typing_fails",
    "Verif.C93_cells_partial"
   ],
   "note": "C93_cells_partial: when no paragraph follows a table, each cell of the selection has one paragraph, every table keeps a cell outside it, all lists are used and the stored text ends in a paragraph with text, exactly the selected cells are emptied, and undo brings the content back. Without these conditions the claim is false: the paragraph behind the table is deleted with the cells (C93_behind_fails), a cell that merely touches the end of the selection is emptied (C93_next_cell_fails), a selection inside the table up to the end of its last cell removes the table (C93_table_fails), and afterwards deletion and typing hit other cells than the one at the given position (C93_next_deletion_fails, C93_next_typing_fails). C93_elsewhere: selections that do not run across cells are treated as the other theorems about deletion say. Every such deletion keeps the store in good order (C91) and can be undone (C92)."
  },
  {
   "property": "C94",
   "status": "partial",
   "theorems": [
    "Verif.C94_markdown_partial",
    "Verif.C94_again_partial",
    "Verif.C94_image_fails",
    "Verif.C94_code_link_fails",
    "Verif.C94_code_block_fails",
    "Verif.C94_underline_fails",
    "Verif.C94_indent_fails",
    "Verif.C94_code_apart_fails",
    "Verif.C94_backtick_fails",
    "Verif.C94_pipe_fails",
    "Verif.C94_link_empty"
   ],
   "note": "Proved for fragments whose text fits (FragFit, FragTableFit: no images; where the format changes one side has no mark; struck-out text is not bold, code has no other mark; no `<` and no `&x` outside code; no indent; items and headings are not empty; no pipe in code or links of cells). Reading is by the small reader of Spec/FragmentMarkdown.lean, not by pulldown_cmark. Outside of this the claim is false: images become text, code loses its link, code blocks become paragraphs, underline is lost, an indent of 2 makes a paragraph code, neighbouring code runs together, a backtick in code ends it, a pipe in code splits a cell (the _fails theorems). A link without target is written with an empty one (C94_link_empty)."
  },
  {
   "property": "C95",
   "status": "partial",
   "theorems": [
    "Verif.C95_inline_partial",
    "Verif.C95_blocks_partial",
    "Verif.C95_undo_partial",
    "Verif.C95_empty_end_fails",
    "Verif.C95_code_fails",
    "Verif.C95_reported_fails",
    "Verif.C95_empty_document_fails",
    "Verif.C95_refused"
   ],
   "note": "Starts from the parsed elements (parsing is C76 to C80). For documents of one frame without images whose stored positions are right. Not so when the paragraph is followed only by one empty paragraph: its last character is lost (C95_empty_end_fails). Code blocks become plain paragraphs (C95_code_fails), a single formatted block is reported as one paragraph though two are added (C95_reported_fails), and a heading in an empty document gets an empty paragraph before and behind it (C95_empty_document_fails). C95_refused: a selection is refused, in any document. Lists are shared by the rule of C44."
  },
  {
   "property": "C96",
   "status": "partial",
   "theorems": [
    "Verif.C96_inline_partial",
    "Verif.C96_blocks_partial",
    "Verif.C96_between_partial",
    "Verif.C96_over_partial",
    "Verif.C96_undo_partial",
    "Verif.C96_empty_end_fails",
    "Verif.C96_count_fails",
    "Verif.C96_refused"
   ],
   "note": "As for C95. The character count is wrong when the first block joins or replaces text of a paragraph with text behind the caret (C96_count_fails). C96_refused: a selection is refused, in any document. Lists are shared by the rule of C44, beginning with the list at the caret."
  },
  {
   "property": "C97",
   "status": "partial",
   "theorems": [
    "Verif.C97_refused",
    "Verif.C97_undo",
    "Verif.C97_empty_before_table_fails",
    "Verif.C97_empty_end_fails",
    "Verif.C97_count_fails",
    "Verif.C97_list_split_fails",
    "Verif.C97_place_after_table_fails",
    "Verif.C97_at_end_partial"
   ],
   "note": "Refusal and undo hold for all documents. A table behind an empty last paragraph damages the text of the document (C97_empty_before_table_fails), a single empty paragraph behind the caret makes a character disappear (C97_empty_end_fails), the character count is wrong when the first paragraph joins (C97_count_fails), list items are torn apart (C97_list_split_fails), and behind a table with several cells the place is wrong (C97_place_after_table_fails). C97_at_end_partial gives the whole result for a caret in the last paragraph of a document of paragraphs: order, texts, formats, lists, cells, joins at both ends, stored positions, caret and counts. A caret before other paragraphs or in a document with tables is missing."
  },
  {
   "property": "C98",
   "status": "partial",
   "theorems": [
    "Verif.C98_set_text_format",
    "Verif.C98_merge_text_format",
    "Verif.C98_set_block_format_partial",
    "Verif.C98_end_of_cell_fails"
   ],
   "note": "Character formats in full for documents without images. For paragraph formats the selection must not start at the very end of a paragraph with text, where nothing or the next paragraph is formatted (C98_end_of_cell_fails). Undo is C92."
  },
  {
   "property": "C99",
   "status": "partial",
   "theorems": [
    "Verif.C99_create_list_partial",
    "Verif.C99_add_to_list",
    "Verif.C99_remove_from_list",
    "Verif.C99_absent",
    "Verif.C99_items",
    "Verif.C99_set_list_format",
    "Verif.C99_list_in_cell_fails"
   ],
   "note": "Joining, leaving, formatting and reading in full for documents without images. create_list is proved to take exactly the touched paragraphs outside tables: it never takes those of cells, so with the caret in a cell the new list is empty, and insert_list puts its item outside the table with a stored position that contradicts the order of the frame (C99_list_in_cell_fails). Undo is C92."
  }
 ]
}