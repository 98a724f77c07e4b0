import Verif.Props.Backspace
import Verif.Props.BoxFormats
import Verif.Props.CellSelection
import Verif.Props.Changes
import Verif.Props.Commands
import Verif.Props.Copy
import Verif.Props.CopyMixed
import Verif.Props.CopyPaste
import Verif.Props.CopyPasteTable
import Verif.Props.Cursor
import Verif.Props.CursorMoves
import Verif.Props.DeleteCells
import Verif.Props.DeleteTabled
import Verif.Props.DirectAccess
import Verif.Props.DocHtml
import Verif.Props.DocText
import Verif.Props.Editing
import Verif.Props.Escape
import Verif.Props.Events
import Verif.Props.ExportDocx
import Verif.Props.ExportHtml
import Verif.Props.ExportLatex
import Verif.Props.ExportMarkdown
import Verif.Props.FormatRuns
import Verif.Props.FormattedText
import Verif.Props.Formatting
import Verif.Props.FragmentMarkdown
import Verif.Props.FragmentTables
import Verif.Props.FragmentText
import Verif.Props.Fragments
import Verif.Props.Frames
import Verif.Props.Grid
import Verif.Props.Highlight
import Verif.Props.HtmlDom
import Verif.Props.Images
import Verif.Props.ImportMarkup
import Verif.Props.InsertMarkup
import Verif.Props.Inspect
import Verif.Props.ListCommands
import Verif.Props.Lists
import Verif.Props.LoadOver
import Verif.Props.LongOps
import Verif.Props.Markdown
import Verif.Props.OffsetIndex
import Verif.Props.Order
import Verif.Props.Paste
import Verif.Props.PasteMixed
import Verif.Props.PasteTable
import Verif.Props.PlainText
import Verif.Props.Properties
import Verif.Props.Reading
import Verif.Props.Replace
import Verif.Props.ReplaceTabled
import Verif.Props.RopeStore
import Verif.Props.SaveLoad
import Verif.Props.Search
import Verif.Props.Session
import Verif.Props.Stats
import Verif.Props.Store
import Verif.Props.TableCopy
import Verif.Props.TableCursor
import Verif.Props.TableEdits
import Verif.Props.TableFormats
import Verif.Props.TableHistory
import Verif.Props.TableLists
import Verif.Props.TableReading
import Verif.Props.TableTypeOver
import Verif.Props.Tables
import Verif.Props.UndoRedo
import Verif.Props.Undoing
/- Axioms of every property theorem (generated: one line per theorem). -/
namespace Verif
#print axioms C26_backspace_never_merged
#print axioms C26_backspace_fails
#print axioms C73_table_format
#print axioms C73_cell_format
#print axioms C73_frame_format_partial
#print axioms C73_frame_position_fails
#print axioms C73_absent
#print axioms C73_current
#print axioms C74_explicit
#print axioms C74_text
#print axioms C74_cells
#print axioms C74_mixed
#print axioms C74_outside
#print axioms C74_around
#print axioms C74_selected_cells
#print axioms C74_selected
#print axioms C74_select_range
#print axioms C74_current
#print axioms C74_current_refused
#print axioms C74_merge_selected_partial
#print axioms C74_merge_selected_fails
#print axioms C74_inserted_sound
#print axioms C31_before_stays
#print axioms C31_after_moves
#print axioms C31_inside_lands
#print axioms C31_order
#print axioms C31_in_document
#print axioms C31_all_cursors
#print axioms C32_edit_correct
#print axioms C32_prefix_maximal
#print axioms C32_suffix_maximal
#print axioms C32_empty_iff
#print axioms C32_announced_partial
#print axioms C32_announced_fails
#print axioms C32_cursor_edit
#print axioms C33_flow_events
#print axioms C33_silent_iff
#print axioms C33_in_bounds
#print axioms C33_block_count
#print axioms C19_type_over
#print axioms C20_undo_redo_partial
#print axioms C20_plain_text_partial
#print axioms C26_merge_only_adjacent
#print axioms C26_merged_partial
#print axioms C26_type_over_fails
#print axioms C63_copy_partial
#print axioms C63_empty
#print axioms C63_stale_fails
#print axioms C63_newline_fails
#print axioms C105_across_partial
#print axioms C105_within
#print axioms C105_example
#print axioms C105_list_fails
#print axioms C65_copy_paste_partial
#print axioms C65_whole_paragraph_partial
#print axioms C65_image_fails
#print axioms C106_copy_paste_table_partial
#print axioms C106_heading_fails
#print axioms C52_set_position
#print axioms C52_set_position_exact
#print axioms C52_move_stays
#print axioms C52_select_stays
#print axioms C52_type
#print axioms C52_enter
#print axioms C52_delete_selection
#print axioms C52_step_partial
#print axioms C52_history_partial
#print axioms C52_new_document_fails
#print axioms C52_undo_fails
#print axioms C52_cursor_at_fails
#print axioms C53_next_character
#print axioms C53_previous_character
#print axioms C53_there_and_back
#print axioms C53_delete_char
#print axioms C53_backspace
#print axioms C54_paragraph_partial
#print axioms C54_next_paragraph_partial
#print axioms C54_previous_paragraph_partial
#print axioms C54_at_paragraph_end_fails
#print axioms C54_empty_paragraphs_fails
#print axioms C55_select_word
#print axioms C55_select_nothing_partial
#print axioms C55_next_word_inside
#print axioms C55_next_word_outside_partial
#print axioms C55_previous_word_inside
#print axioms C55_previous_word_outside_partial
#print axioms C55_previous_word_fails
#print axioms C55_next_word_fails
#print axioms C55_select_word_end_fails
#print axioms C56_selected_text
#print axioms C56_select_all
#print axioms C56_block_format_partial
#print axioms C56_char_format_partial
#print axioms C93_elsewhere
#print axioms C93_behind_fails
#print axioms C93_next_cell_fails
#print axioms C93_table_fails
#print axioms C93_next_deletion_fails
#print axioms C93_next_typing_fails
#print axioms C69_delete_partial
#print axioms C93_cells_partial
#print axioms C87_remove
#print axioms C87_missing
#print axioms C87_child_order_fails
#print axioms C89_error
#print axioms C89_valid
#print axioms C89_set_refused
#print axioms C89_id_in_use
#print axioms C89_move_dangling_fails
#print axioms C89_update_dangling_fails
#print axioms C88_history_partial
#print axioms C88_redo_set_fails
#print axioms C88_ids_again_fails
#print axioms C88_no_document_fails
#print axioms C88_adopted_fails
#print axioms C90_read
#print axioms C90_create
#print axioms C90_set
#print axioms C90_move
#print axioms C90_update
#print axioms C102_html_partial
#print axioms C102_one_paragraph
#print axioms C102_twice_fails
#print axioms C102_heading_in_cell_fails
#print axioms C103_plain_text_partial
#print axioms C103_nothing_lost
#print axioms C103_length
#print axioms C103_order_fails
#print axioms C16_insert_text_nested
#print axioms C16_insert_text
#print axioms C16_characters
#print axioms C16_plain_text
#print axioms C17_delete_text
#print axioms C17_characters
#print axioms C17_paragraphs
#print axioms C17_nothing_left
#print axioms C18_insert_block
#print axioms C18_characters
#print axioms C18_paragraphs
#print axioms C19_same_paragraph
#print axioms C45_html
#print axioms C45_latex
#print axioms C45_distinct
#print axioms C45_markdown_partial
#print axioms C45_markdown_fails
#print axioms C29_flush_publishes
#print axioms C29_discard_forgets
#print axioms C29_outside_dropped
#print axioms C29_abandoned_forgotten
#print axioms C29_hub
#print axioms C29_after_restore_fails
#print axioms C30_poll_exactly_once
#print axioms C30_callback_exactly_once
#print axioms C30_callback_complete
#print axioms C30_dispatch_catches_up
#print axioms C30_callback_in_order_partial
#print axioms C30_callback_order_fails
#print axioms C30_delivered_dropped
#print axioms C30_never_polled_fails
#print axioms C86_docx_partial
#print axioms C86_place_fails
#print axioms C86_order_fails
#print axioms C86_span_fails
#print axioms C86_heading_in_cell_fails
#print axioms C59_html_page_partial
#print axioms C59_html_any_lists
#print axioms C59_html_text_partial
#print axioms C59_color_fails
#print axioms C59_lists_merge_fails
#print axioms C59_code_item_fails
#print axioms C78_latex_partial
#print axioms C78_latex_any_lists
#print axioms C78_latex_text_partial
#print axioms C78_empty_fails
#print axioms C78_item_fails
#print axioms C78_code_fails
#print axioms C78_color_fails
#print axioms C78_lists_fails
#print axioms C78_levels_fails
#print axioms C78_package_fails
#print axioms C78_quote_fails
#print axioms C79_markdown_partial
#print axioms C79_roundtrip_partial
#print axioms C79_same_partial
#print axioms C79_backtick_fails
#print axioms C79_html_fails
#print axioms C79_empty_fails
#print axioms C79_marks_fails
#print axioms C79_link_fails
#print axioms C79_underline_fails
#print axioms C79_lists_fails
#print axioms C79_code_fails
#print axioms C79_quote_fails
#print axioms C01_edit_keeps_wellFormed
#print axioms C01_history_keeps_wellFormed
#print axioms C01_from_scratch
#print axioms C02_format_range_exact
#print axioms C02_format_images_exact
#print axioms C02_set_fields
#print axioms C02_merge_fields
#print axioms C03_insert_formats
#print axioms C03_insert_images
#print axioms C03_insert_images_ok
#print axioms C04_delete_formats
#print axioms C04_delete_images
#print axioms C05_split_formats
#print axioms C05_join_formats
#print axioms C05_split_join_runs
#print axioms C05_split_join_images
#print axioms C06_undo_restores_runs
#print axioms C06_no_inverse_no_change
#print axioms C06_undo_redo_partial
#print axioms C06_undo_images_fails
#print axioms C58_characters
#print axioms C58_insert_formatted
#print axioms C58_cursor
#print axioms C58_plain_text
#print axioms C20_formatted_text_partial
#print axioms C58_format_partial
#print axioms C58_format_fails
#print axioms C58_empty_text_fails
#print axioms C58_beyond_end_fails
#print axioms C49_set_text_format_partial
#print axioms C49_merge_text_format_partial
#print axioms C49_format_keeps_text
#print axioms C49_stale_positions_fails
#print axioms C20_format_text_partial
#print axioms C50_set_block_format_partial
#print axioms C50_fields
#print axioms C50_caret_at_end_fails
#print axioms C20_block_format_partial
#print axioms C51_set_reads_back_partial
#print axioms C51_set_drops_fields_fails
#print axioms C51_merge_reads_back_partial
#print axioms C51_merge_drops_fields_fails
#print axioms C51_block_reads_back_partial
#print axioms C51_block_drops_tabs_fails
#print axioms C94_markdown_partial
#print axioms C94_again_partial
#print axioms C94_image_fails
#print axioms C94_link_empty
#print axioms C94_code_link_fails
#print axioms C94_code_block_fails
#print axioms C94_underline_fails
#print axioms C94_indent_fails
#print axioms C94_code_apart_fails
#print axioms C94_backtick_fails
#print axioms C94_pipe_fails
#print axioms C81_tables_partial
#print axioms C80_plain
#print axioms C80_elements
#print axioms C80_insert_partial
#print axioms C80_insert_plain_partial
#print axioms C80_insert_markup_partial
#print axioms C80_insert_blocks_partial
#print axioms C80_markdown_partial
#print axioms C80_html_partial
#print axioms C80_new
#print axioms C80_code_fails
#print axioms C80_quote_fails
#print axioms C80_table_text_fails
#print axioms C81_html_partial
#print axioms C81_inline_partial
#print axioms C81_plain
#print axioms C81_styles_fails
#print axioms C81_table_fails
#print axioms C07_fragments_tile
#print axioms C07_fragments_text_and_images
#print axioms C07_inline_segments_partial
#print axioms C07_inline_segments_fails
#print axioms C08_offset_meaning
#print axioms C08_offset_is_boundary
#print axioms C08_offset_monotone
#print axioms C08_offset_clamps
#print axioms C08_offset_plain
#print axioms C08_offset_with_image_fails
#print axioms C60_insert_frame_partial
#print axioms C60_undo_partial
#print axioms C60_not_in_text_fails
#print axioms C60_exported_twice_fails
#print axioms C38_new_table
#print axioms C38_insert_row_partial
#print axioms C38_insert_column_partial
#print axioms C38_insert_row_fails
#print axioms C38_insert_column_fails
#print axioms C38_remove_row
#print axioms C38_remove_column
#print axioms C38_remove_refused
#print axioms C38_merge_partial
#print axioms C38_merge_fails
#print axioms C38_split
#print axioms C38_history_partial
#print axioms C39_expand
#print axioms C42_overlay
#print axioms C42_text_kept
#print axioms C43_incremental_partial
#print axioms C43_new_paragraph_fails
#print axioms C43_affected
#print axioms C77_texts
#print axioms C77_parse
#print axioms C77_inline
#print axioms C77_load
#print axioms C77_space_fails
#print axioms C77_break_fails
#print axioms C77_order_fails
#print axioms C77_items_fails
#print axioms C77_table_fails
#print axioms C77_deep_fails
#print axioms C62_insert_image_partial
#print axioms C62_undo_partial
#print axioms C62_refused
#print axioms C62_order
#print axioms C62_anchor_fails
#print axioms C62_unreadable_fails
#print axioms C62_image_stays_fails
#print axioms C61_image_is_a_word_fails
#print axioms C75_new_ready
#print axioms C75_import
#print axioms C75_import_tabled
#print axioms C75_import_flat
#print axioms C75_loads
#print axioms C75_history_fails
#print axioms C75_leftovers_fails
#print axioms C75_opening_fails
#print axioms C75_ragged_fails
#print axioms C95_inline_partial
#print axioms C96_inline_partial
#print axioms C95_blocks_partial
#print axioms C96_blocks_partial
#print axioms C96_between_partial
#print axioms C96_over_partial
#print axioms C95_undo_partial
#print axioms C96_undo_partial
#print axioms C95_refused
#print axioms C96_refused
#print axioms C95_empty_end_fails
#print axioms C96_empty_end_fails
#print axioms C95_code_fails
#print axioms C95_reported_fails
#print axioms C95_empty_document_fails
#print axioms C96_count_fails
#print axioms C48_text_at
#print axioms C48_text_at_limits
#print axioms C48_block_at
#print axioms C48_block_at_limits
#print axioms C07_document_fragments
#print axioms C57_create_list_partial
#print axioms C57_add_to_list
#print axioms C57_add_absent
#print axioms C57_remove_from_list
#print axioms C57_remove_absent
#print axioms C57_set_list_format
#print axioms C57_items
#print axioms C57_number
#print axioms C57_history
#print axioms C20_list_commands_partial
#print axioms C57_stale_positions_fails
#print axioms C57_insert_list_fails
#print axioms C57_move_leaves_empty_list_fails
#print axioms C40_roman
#print axioms C40_decimal
#print axioms C40_alpha
#print axioms C40_distinct
#print axioms C40_index
#print axioms C41_distinct
#print axioms C41_no_entity
#print axioms C41_large_ids_fails
#print axioms C44_groups
#print axioms C44_groups_from
#print axioms C107_load_over_partial
#print axioms C107_load_succeeds
#print axioms C107_load_over_tables
#print axioms C107_tables_stay_fails
#print axioms C46_ids
#print axioms C46_final_partial
#print axioms C46_cancelled_changes_fails
#print axioms C46_late_cancel_fails
#print axioms C46_reported
#print axioms C46_ends
#print axioms C46_panic_fails
#print axioms C46_result
#print axioms C46_result_stored
#print axioms C46_cancel
#print axioms C46_cleanup
#print axioms C46_events
#print axioms C76_parse
#print axioms C76_load
#print axioms C76_nested_fails
#print axioms C76_heading_break_fails
#print axioms C76_tight_fails
#print axioms C76_items_fails
#print axioms C09_step_keeps_caches
#print axioms C09_history_keeps_caches
#print axioms C09_ranges
#print axioms C09_entries
#print axioms C10_marker_at_byte
#print axioms C10_byte_to_marker_byte
#print axioms C10_document_index_ordered
#print axioms C91_command
#print axioms C91_new
#print axioms C91_load
#print axioms C91_history_partial
#print axioms C91_undo_after_load_fails
#print axioms C64_inline_partial
#print axioms C64_many_partial
#print axioms C64_over_partial
#print axioms C64_between_partial
#print axioms C64_undo_partial
#print axioms C64_refused
#print axioms C64_count_fails
#print axioms C64_between_fails
#print axioms C64_over_fails
#print axioms C64_prefix_fails
#print axioms C97_refused
#print axioms C97_undo
#print axioms C97_at_end_partial
#print axioms C97_empty_before_table_fails
#print axioms C97_empty_end_fails
#print axioms C97_count_fails
#print axioms C97_list_split_fails
#print axioms C97_place_after_table_fails
#print axioms C85_paste_table_partial
#print axioms C85_replaced_text
#print axioms C85_on_cells_partial
#print axioms C85_replace_cell_fails
#print axioms C85_two_paragraphs_fails
#print axioms C85_positions_fails
#print axioms C85_place_after_table_fails
#print axioms C85_place_after_enter_fails
#print axioms C37_import
#print axioms C37_import_again
#print axioms C37_new_document
#print axioms C47_life_partial
#print axioms C47_new_document_fails
#print axioms C83_properties
#print axioms C83_resource_partial
#print axioms C83_resource_unique
#print axioms C83_just_added
#print axioms C83_last_added_fails
#print axioms C84_text_partial
#print axioms C84_read_twice
#print axioms C84_read_during_import_fails
#print axioms C84_modified
#print axioms C84_unmodified
#print axioms C66_blocks
#print axioms C66_handle
#print axioms C66_absent
#print axioms C66_snapshot
#print axioms C66_flow
#print axioms C66_at_position
#print axioms C66_in_range
#print axioms C66_char_format
#print axioms C66_element_partial
#print axioms C66_element_fails
#print axioms C66_frame_positions_fails
#print axioms C36_replace_matches_partial
#print axioms C36_replace_all_partial
#print axioms C36_replace_one_partial
#print axioms C47_replace_partial
#print axioms C20_replace_partial
#print axioms C36_stale_positions_fails
#print axioms C36_overlap_fails
#print axioms C100_find_all
#print axioms C100_find
#print axioms C100_replace_matches_partial
#print axioms C100_replace_all_partial
#print axioms C100_replace_one
#print axioms C100_between_cells_fails
#print axioms C11_insert_in_paragraph
#print axioms C11_delete_in_paragraph
#print axioms C11_reading
#print axioms C12_split
#print axioms C12_merge
#print axioms C12_remove
#print axioms C12_replace_partial
#print axioms C12_replace_fails
#print axioms C12_append_first
#print axioms C12_append
#print axioms C12_reset
#print axioms C12_append_empty_partial
#print axioms C12_append_empty_fails
#print axioms C12_insert_at_end_partial
#print axioms C12_insert_at_start_fails
#print axioms C13_insert_before
#print axioms C13_insert_after_partial
#print axioms C13_insert_after_fails
#print axioms C13_append_partial
#print axioms C13_append_fails
#print axioms C13_remove_partial
#print axioms C13_remove_fails
#print axioms C13_remove_sole_fails
#print axioms C13_insert_before_remove
#print axioms C13_insert_after_remove_partial
#print axioms C14_reading
#print axioms C14_step
#print axioms C14_history_partial
#print axioms C15_position_resolves
#print axioms C15_total_and_clamped
#print axioms C15_own_position
#print axioms C15_declined
#print axioms C108_save_load_partial
#print axioms C108_typed_line_end_fails
#print axioms C34_exact
#print axioms C34_whole_word
#print axioms C34_case_insensitive_partial
#print axioms C34_case_insensitive_fails
#print axioms C34_regex
#print axioms C34_empty_query
#print axioms C34_find_all
#print axioms C35_forward
#print axioms C35_backward
#print axioms C35_literal
#print axioms C21_editing_session
#print axioms C61_stats_partial
#print axioms C27_drop
#print axioms C27_rollback
#print axioms C27_commit
#print axioms C27_read
#print axioms C27_savepoint
#print axioms C27_undo_snapshot
#print axioms C28_ids_unique_partial
#print axioms C28_new_id_fresh_partial
#print axioms C28_savepoint_fails
#print axioms C104_outside_partial
#print axioms C104_cell_twice
#print axioms C104_word_in_cell
#print axioms C104_cell_fails
#print axioms C70_text_at
#print axioms C70_text_at_limits
#print axioms C70_block_at
#print axioms C70_set_position
#print axioms C70_set_position_exact
#print axioms C70_move_stays
#print axioms C70_select_stays
#print axioms C70_next_character
#print axioms C70_previous_character
#print axioms C70_there_and_back
#print axioms C70_paragraph_partial
#print axioms C70_next_paragraph_partial
#print axioms C70_previous_paragraph_partial
#print axioms C70_select_word
#print axioms C70_select_nothing_partial
#print axioms C70_next_word_inside
#print axioms C70_next_word_outside_partial
#print axioms C70_previous_word_inside
#print axioms C70_previous_word_outside_partial
#print axioms C70_selected_text
#print axioms C70_select_all
#print axioms C70_block_format_partial
#print axioms C70_char_format_partial
#print axioms C71_cell_at
#print axioms C71_select_together
#print axioms C71_select_into
#print axioms C71_select_into_last
#print axioms C71_move_together
#print axioms C71_select_out_fails
#print axioms C82_insert_row_partial
#print axioms C82_insert_column_partial
#print axioms C82_remove_row_partial
#print axioms C82_remove_column_partial
#print axioms C82_merge_partial
#print axioms C82_split_partial
#print axioms C82_refused
#print axioms C82_inserted
#print axioms C82_only_document
#print axioms C82_remove_table_partial
#print axioms C82_insert_remove_partial
#print axioms C82_insert_row_positions_fails
#print axioms C82_remove_row_counts_fails
#print axioms C82_remove_table_counts_fails
#print axioms C82_merge_text_fails
#print axioms C98_set_text_format
#print axioms C98_merge_text_format
#print axioms C98_set_block_format_partial
#print axioms C98_end_of_cell_fails
#print axioms C61_stats_tables_partial
#print axioms C101_call
#print axioms C101_history
#print axioms C101_text
#print axioms C99_create_list_partial
#print axioms C99_add_to_list
#print axioms C99_remove_from_list
#print axioms C99_absent
#print axioms C99_items
#print axioms C99_set_list_format
#print axioms C99_list_in_cell_fails
#print axioms C72_blocks
#print axioms C72_handle
#print axioms C72_home
#print axioms C72_absent
#print axioms C72_snapshot
#print axioms C72_at_position
#print axioms C72_in_range
#print axioms C72_char_format
#print axioms C72_element_partial
#print axioms C72_flow
#print axioms C72_flow_snapshot
#print axioms C72_table
#print axioms C72_cell
#print axioms C72_table_snapshot
#print axioms C68_type_over
#print axioms C68_type_across
#print axioms C58_table_fails
#print axioms C67_insert_table
#print axioms C67_insert_table_refused
#print axioms C67_insert_in_cell_partial
#print axioms C67_insert_in_cell_fails
#print axioms C68_insert_text
#print axioms C68_undo_fails
#print axioms C69_insert_block_partial
#print axioms C69_break_in_cell_fails
#print axioms C69_delete_fails
#print axioms C21_start
#print axioms C21_timeline
#print axioms C21_undo_redo_count
#print axioms C21_step_with_merging
#print axioms C21_empty
#print axioms C22_add_clears_redo_partial
#print axioms C22_group_clears_redo
#print axioms C22_open_group_fails
#print axioms C23_group_is_one_entry
#print axioms C23_group_is_one_step
#print axioms C23_cancel
#print axioms C23_other_stack_fails
#print axioms C23_inner_cancel_fails
#print axioms C23_deleted_stack_fails
#print axioms C24_failed_step_keeps_history
#print axioms C24_successful_step
#print axioms C24_group_half_undone_fails
#print axioms C25_isolated
#print axioms C25_root_and_fresh
#print axioms C25_group_keeps_to_its_stack
#print axioms C25_clear_all
#print axioms C92_undo
#print axioms C92_undo_exact
#print axioms C92_history_partial
end Verif
