{
 "claims": [
  {
   "property": "C01",
   "status": "proved",
   "theorems": [
    "OsmIo.C01_node_block_roundtrip"
   ],
   "note": ""
  },
  {
   "property": "C02",
   "status": "proved",
   "theorems": [
    "OsmIo.C02_way_block_roundtrip"
   ],
   "note": ""
  },
  {
   "property": "C03",
   "status": "proved",
   "theorems": [
    "OsmIo.C03_relation_block_roundtrip"
   ],
   "note": ""
  },
  {
   "property": "C04",
   "status": "proved",
   "theorems": [
    "OsmIo.C04_C05_block_rounded",
    "OsmIo.C04_grid_exact",
    "OsmIo.rnd_is_nearest_double"
   ],
   "note": "Doubles are rationals rounded to 53 bits; no NaN, infinities or exponent limits."
  },
  {
   "property": "C05",
   "status": "proved",
   "theorems": [
    "OsmIo.C05_timestamp_truncated",
    "OsmIo.C04_C05_block_rounded"
   ],
   "note": ""
  },
  {
   "property": "C06",
   "status": "proved",
   "theorems": [
    "OsmIo.C06_string_table"
   ],
   "note": ""
  },
  {
   "property": "C07",
   "status": "proved",
   "theorems": [
    "OsmIo.C07_varint",
    "OsmIo.C07_scalars",
    "OsmIo.C07_messages"
   ],
   "note": ""
  },
  {
   "property": "C08",
   "status": "proved",
   "theorems": [
    "OsmIo.C08_framing"
   ],
   "note": ""
  },
  {
   "property": "C09",
   "status": "proved",
   "theorems": [
    "OsmIo.C09_file_roundtrip",
    "OsmIo.C09_file_roundtrip_rounded"
   ],
   "note": "zlib is a parameter assumed lossless."
  },
  {
   "property": "C10",
   "status": "proved",
   "theorems": [
    "OsmIo.C10_truncated_prefix",
    "OsmIo.C10_truncated_open",
    "OsmIo.C10_written_cut",
    "OsmIo.C10_exact",
    "OsmIo.C10_open_exact"
   ],
   "note": ""
  },
  {
   "property": "C11",
   "status": "proved",
   "theorems": [
    "OsmIo.C11_C12_writer_blocks"
   ],
   "note": ""
  },
  {
   "property": "C12",
   "status": "proved",
   "theorems": [
    "OsmIo.C11_C12_writer_blocks"
   ],
   "note": ""
  },
  {
   "property": "C13",
   "status": "proved",
   "theorems": [
    "OsmIo.C13_writer_accepts_iff",
    "OsmIo.C13_nodes_then_relations_refused"
   ],
   "note": ""
  },
  {
   "property": "C14",
   "status": "proved",
   "theorems": [
    "OsmIo.C14_sentinels_ignored"
   ],
   "note": ""
  },
  {
   "property": "C15",
   "status": "proved",
   "theorems": [
    "OsmIo.C15_header_roundtrip",
    "OsmIo.C15_empty_info_unreadable"
   ],
   "note": ""
  },
  {
   "property": "C16",
   "status": "proved",
   "theorems": [
    "OsmIo.C16_bbox_side",
    "OsmIo.C16_bbox_roundtrip",
    "OsmIo.C16_bbox_no_growth",
    "OsmIo.C16_drift"
   ],
   "note": ""
  },
  {
   "property": "C17",
   "status": "proved",
   "theorems": [
    "OsmIo.C17_open_iff",
    "OsmIo.C17_missing_features",
    "OsmIo.C17_unsupported_refused",
    "OsmIo.C17_error_iff",
    "OsmIo.C17_panic_iff",
    "OsmIo.C17_published",
    "OsmIo.C17_damaged_first"
   ],
   "note": ""
  },
  {
   "property": "C18",
   "status": "proved",
   "theorems": [
    "OsmIo.C18_iteration_order",
    "OsmIo.C18_shape"
   ],
   "note": ""
  },
  {
   "property": "C19",
   "status": "proved",
   "theorems": [
    "OsmIo.C19_parallel_each_once",
    "OsmIo.C19_parallel_terminates",
    "OsmIo.C19_parallel_reads_written"
   ],
   "note": "Any number of threads, any order of taking blobs from the queue, any interleaving of calls; the function may have any effect on a shared state. Failing functions and unreadable blobs are not covered."
  },
  {
   "property": "C20",
   "status": "proved",
   "theorems": [
    "OsmIo.C20_counts_exact"
   ],
   "note": "For files with fewer than 2^63 elements."
  },
  {
   "property": "C21",
   "status": "proved",
   "theorems": [
    "OsmIo.C21_box_is_tight",
    "OsmIo.C21_box_deterministic",
    "OsmIo.C21_block_box",
    "OsmIo.C21_later_nodes_missed"
   ],
   "note": "Includes the panic for files without nodes."
  },
  {
   "property": "C22",
   "status": "proved",
   "theorems": [
    "OsmIo.C22_merge_is_least",
    "OsmIo.C22_merge_point_is_least",
    "OsmIo.C22_merge_algebra",
    "OsmIo.C22_merge_proper",
    "OsmIo.C22_merge_points_tight",
    "OsmIo.C22_default_is_world",
    "OsmIo.C22_file_info_merge"
   ],
   "note": ""
  },
  {
   "property": "C23",
   "status": "proved",
   "theorems": [
    "OsmIo.C23_order_is_type_id_version",
    "OsmIo.C23_order_total",
    "OsmIo.C23_sentinel_not_ordered",
    "OsmIo.C23_eq",
    "OsmIo.C23_kinds"
   ],
   "note": ""
  },
  {
   "property": "C24",
   "status": "proved",
   "theorems": [
    "OsmIo.C24_blocks_in_order",
    "OsmIo.C24_pipeline_terminates"
   ],
   "note": "Transition system of ordering, encoding and writing threads; any number of encoding threads."
  },
  {
   "property": "C25",
   "status": "proved",
   "theorems": [
    "OsmIo.C25_permutation",
    "OsmIo.C25_permutation_open"
   ],
   "note": "For every sort function that permutes its input."
  },
  {
   "property": "C26",
   "status": "proved",
   "theorems": [
    "OsmIo.C26_sorted_iff_no_late",
    "OsmIo.C26_sorted_input_not_late",
    "OsmIo.C26_bounded_disorder_not_late",
    "OsmIo.C26_sorted_output"
   ],
   "note": "Exact characterisation (iff), plus two sufficient conditions on the input."
  },
  {
   "property": "C27",
   "status": "proved",
   "theorems": [
    "OsmIo.C27_detection",
    "OsmIo.C27_undetected_disorder"
   ],
   "note": "Exact condition of the panic, and a witness of undetected disorder."
  },
  {
   "property": "C28",
   "status": "proved",
   "theorems": [
    "OsmIo.C28_accumulator_loses_nothing"
   ],
   "note": "Also: exactly one batch per data block, nothing left behind."
  },
  {
   "property": "C29",
   "status": "proved",
   "theorems": [
    "OsmIo.C29_reencode_idempotent"
   ],
   "note": ""
  },
  {
   "property": "C30",
   "status": "proved",
   "theorems": [
    "OsmIo.C30_default_scales",
    "OsmIo.C30_default_metadata",
    "OsmIo.C30_default_visible",
    "OsmIo.C30_default_fields",
    "OsmIo.C30_default_timestamp"
   ],
   "note": ""
  },
  {
   "property": "C31",
   "status": "proved",
   "theorems": [
    "OsmIo.C31_unsupported_blob",
    "OsmIo.C31_unknown_type",
    "OsmIo.C31_no_elements",
    "OsmIo.C31_stops_at_unsupported",
    "OsmIo.C31_zlib_size",
    "OsmIo.C31_cut_blob",
    "OsmIo.C31_cut_block",
    "OsmIo.C31_unknown_type_error",
    "OsmIo.C31_stops_at_damaged",
    "OsmIo.C31_changesets",
    "OsmIo.C31_cut_anywhere",
    "OsmIo.C31_unsized"
   ],
   "note": ""
  },
  {
   "property": "C32",
   "status": "proved",
   "theorems": [
    "OsmIo.C32_blob_iteration_terminates",
    "OsmIo.C32_sequential_terminates",
    "OsmIo.C32_negative_size_loops"
   ],
   "note": ""
  },
  {
   "property": "C33",
   "status": "proved",
   "theorems": [
    "OsmIo.C33_close_idempotent"
   ],
   "note": ""
  },
  {
   "property": "C34",
   "status": "proved",
   "theorems": [
    "OsmIo.C34_parallel_write_sequential_read"
   ],
   "note": ""
  },
  {
   "property": "C35",
   "status": "proved",
   "theorems": [
    "OsmIo.C35_block_shape",
    "OsmIo.C35_flush_terminates"
   ],
   "note": ""
  },
  {
   "property": "C36",
   "status": "proved",
   "theorems": [
    "OsmIo.C36_buffer_bounded"
   ],
   "note": ""
  },
  {
   "property": "C37",
   "status": "proved",
   "theorems": [
    "OsmIo.C37_one_type_per_block",
    "OsmIo.C37_faithful_iff"
   ],
   "note": ""
  },
  {
   "property": "C38",
   "status": "proved",
   "theorems": [
    "OsmIo.C38_strings_from_table"
   ],
   "note": ""
  },
  {
   "property": "C39",
   "status": "proved",
   "theorems": [
    "OsmIo.C39_writer_new",
    "OsmIo.C39_default"
   ],
   "note": ""
  },
  {
   "property": "C40",
   "status": "proved",
   "theorems": [
    "OsmIo.C40_grid",
    "OsmIo.C40_grid_mono",
    "OsmIo.C40_corners",
    "OsmIo.C40_bits",
    "OsmIo.C40_tile_range",
    "OsmIo.C40_same_tile"
   ],
   "note": ""
  },
  {
   "property": "C41",
   "status": "proved",
   "theorems": [
    "OsmIo.C41_current_nodes",
    "OsmIo.C41_current_ways",
    "OsmIo.C41_current_relations",
    "OsmIo.C41_last_versions",
    "OsmIo.C41_last_is_highest",
    "OsmIo.C41_needs_order"
   ],
   "note": "C41_needs_order: without the order of ids current rows are lost."
  },
  {
   "property": "C42",
   "status": "proved",
   "theorems": [
    "OsmIo.C42_history"
   ],
   "note": ""
  },
  {
   "property": "C43",
   "status": "proved",
   "theorems": [
    "OsmIo.C43_elements",
    "OsmIo.C43_orphan"
   ],
   "note": "C43_orphan: the condition that each part has an owner is needed."
  },
  {
   "property": "C44",
   "status": "proved",
   "theorems": [
    "OsmIo.C44_owner",
    "OsmIo.C44_missing",
    "OsmIo.C44_shown"
   ],
   "note": ""
  },
  {
   "property": "C45",
   "status": "proved",
   "theorems": [
    "OsmIo.C45_shape",
    "OsmIo.C45_ends",
    "OsmIo.C44_missing",
    "OsmIo.C45_missing_table",
    "OsmIo.C45_missing_table_shown"
   ],
   "note": ""
  },
  {
   "property": "C46",
   "status": "proved",
   "theorems": [
    "OsmIo.C46_member_order",
    "OsmIo.C46_order_lost"
   ],
   "note": "Exact condition under which the order survives, and a witness that it is lost otherwise. Assumes the contract of text_file_sort (Sorted) and of the escaping crates (Faithful)."
  },
  {
   "property": "C47",
   "status": "proved",
   "theorems": [
    "OsmIo.C47_bool",
    "OsmIo.C47_millis",
    "OsmIo.C47_millis_total",
    "OsmIo.C47_micros",
    "OsmIo.C47_null_string"
   ],
   "note": "chrono's calendar is modelled, not part of the repository."
  },
  {
   "property": "C48",
   "status": "proved",
   "theorems": [
    "OsmIo.C48_parse",
    "OsmIo.C48_no_panic"
   ],
   "note": "f64::from_str is a parameter."
  },
  {
   "property": "C49",
   "status": "proved",
   "theorems": [
    "OsmIo.C49_accepted",
    "OsmIo.C49_records",
    "OsmIo.C49_order",
    "OsmIo.C49_content",
    "OsmIo.C49_elements"
   ],
   "note": "Columns may be permuted differently in each table; column names of a table are distinct. C49_elements is for well-formed dumps (as C43)."
  },
  {
   "property": "C50",
   "status": "proved",
   "theorems": [
    "OsmIo.C50_terminated",
    "OsmIo.C50_empty",
    "OsmIo.C50_close_appends"
   ],
   "note": "escape and user names must not contain a newline; the escape function is outside the repository."
  },
  {
   "property": "C51",
   "status": "proved",
   "theorems": [
    "OsmIo.C51_filter_pipeline"
   ],
   "note": "End to end: parallel read, thread local accumulation, parallel write."
  },
  {
   "property": "C52",
   "status": "proved",
   "theorems": [
    "OsmIo.C52_users",
    "OsmIo.C52_changesets"
   ],
   "note": ""
  },
  {
   "property": "C53",
   "status": "proved",
   "theorems": [
    "OsmIo.C53_round_trip",
    "OsmIo.C53_exact",
    "OsmIo.C53_sortable"
   ],
   "note": "Assumes the contract of text_file_sort (Sorted; C53_sortable shows it can be met for every dump) and of the escaping crates (Faithful; met by a backslash codec). Column names and data files of the embedded table of contents are modelled as dumpTables."
  },
  {
   "property": "C54",
   "status": "proved",
   "theorems": [
    "OsmIo.C54_scan",
    "OsmIo.C54_tables",
    "OsmIo.C54_dump",
    "OsmIo.C54_missing_column",
    "OsmIo.C54_definition",
    "OsmIo.C54_not_utf8",
    "OsmIo.C54_malformed"
   ],
   "note": "The regular expression of Reader::new is modelled by captures; UTF-8 decoding by the standard library."
  },
  {
   "property": "C55",
   "status": "proved",
   "theorems": [
    "OsmIo.C55_block_read_as_published",
    "OsmIo.C55_bytes_read_as_published"
   ],
   "note": "Published meaning: Spec/Format.lean. Zero granularity, missing Info columns and i32 timestamps outside the representable range have no published meaning there."
  },
  {
   "property": "C56",
   "status": "proved",
   "theorems": [
    "OsmIo.C56_block_written_as_published",
    "OsmIo.C56_exact_block_written_as_published",
    "OsmIo.C56_units",
    "OsmIo.C56_condition",
    "OsmIo.OsmIo.C56_steps_written_as_published"
   ],
   "note": "C56_condition: exactly if all differences fit (Steps); Moderate is a simple sufficient condition."
  },
  {
   "property": "C57",
   "status": "proved",
   "theorems": [
    "OsmIo.C57_file_written_as_published",
    "OsmIo.C57_parallel_written_as_published"
   ],
   "note": "Published format: Spec/Protobuf.lean, Spec/Format.lean, Spec/FormatFile.lean. Assumes the zlib encoder produces zlib streams (parameter inflates)."
  },
  {
   "property": "C58",
   "status": "proved",
   "theorems": [
    "OsmIo.C58_file_read_as_published",
    "OsmIo.C58_blocks_read_as_published",
    "OsmIo.C58_block_bytes",
    "OsmIo.C58_parallel",
    "OsmIo.C58_parallel_runs",
    "OsmIo.C58_counts",
    "OsmIo.C58_box"
   ],
   "note": "An embedded singular message may occur once (merging of split messages is not specified); zlib data without raw_size is outside (see C31/C32: it panics)."
  },
  {
   "property": "C59",
   "status": "proved",
   "theorems": [
    "OsmIo.C59_append_only",
    "OsmIo.C59_survives"
   ],
   "note": ""
  },
  {
   "property": "C60",
   "status": "proved",
   "theorems": [
    "OsmIo.C60_crash_prefix",
    "OsmIo.C60_survives",
    "OsmIo.C60_append_only",
    "OsmIo.C60_crash_sorted"
   ],
   "note": "Blocks whose elements need no rounding; C60_crash_sorted includes the batching and sorting of the calls."
  },
  {
   "property": "C61",
   "status": "proved",
   "theorems": [
    "OsmIo.C61_total",
    "OsmIo.C61_copy",
    "OsmIo.C61_copy_exact",
    "OsmIo.C61_refused",
    "OsmIo.C61_unsupported",
    "OsmIo.C61_damaged",
    "OsmIo.C61_damaged_first"
   ],
   "note": "Reading and writing alternate in the program; they share nothing, so the model reads first."
  },
  {
   "property": "C62",
   "status": "proved",
   "theorems": [
    "OsmIo.C62_total",
    "OsmIo.C62_convert",
    "OsmIo.C62_unsupported",
    "OsmIo.C62_damaged_first"
   ],
   "note": ""
  },
  {
   "property": "C63",
   "status": "proved",
   "theorems": [
    "OsmIo.C63_total",
    "OsmIo.C63_convert",
    "OsmIo.C63_refused",
    "OsmIo.C63_unowned",
    "OsmIo.C63_there_and_back",
    "OsmIo.C63_missing_table",
    "OsmIo.C63_shown",
    "OsmIo.C63_refused_shown",
    "OsmIo.C63_unowned_shown"
   ],
   "note": "Sorting is the relation SortedCopy; C53_sortable shows that a sorted copy exists."
  },
  {
   "property": "C64",
   "status": "proved",
   "theorems": [
    "OsmIo.C64_statements",
    "OsmIo.C64_toc_read",
    "OsmIo.C64_files",
    "OsmIo.C64_directory",
    "OsmIo.C64_open",
    "OsmIo.C64_round_trip",
    "OsmIo.C64_programs"
   ],
   "note": "toc.dat and mapping.json are in the model byte for byte (scripts/gen_toc.py)."
  },
  {
   "property": "C65",
   "status": "proved",
   "theorems": [
    "OsmIo.C65_history",
    "OsmIo.C65_current",
    "OsmIo.C65_users",
    "OsmIo.C65_every"
   ],
   "note": "Values are compared as they are in the file (escaped); what PostgreSQL makes of an escaped value depends on the escape crate, a parameter."
  },
  {
   "property": "C66",
   "status": "proved",
   "theorems": [
    "OsmIo.C66_millis",
    "OsmIo.C66_micros",
    "OsmIo.C66_parse",
    "OsmIo.C66_days"
   ],
   "note": "Years outside 0 to 9999 are covered by C47 only."
  },
  {
   "property": "C67",
   "status": "proved",
   "theorems": [
    "OsmIo.C67_node",
    "OsmIo.C67_way",
    "OsmIo.C67_relation",
    "OsmIo.C67_node_tag",
    "OsmIo.C67_object_tag",
    "OsmIo.C67_way_node",
    "OsmIo.C67_member",
    "OsmIo.C67_changeset",
    "OsmIo.C67_user",
    "OsmIo.C67_content",
    "OsmIo.C67_elements",
    "OsmIo.C67_node_accepted",
    "OsmIo.C67_object_accepted",
    "OsmIo.C67_parts_accepted"
   ],
   "note": "Rows are specified in Spec/ApidbRow.lean without the reader. Which texts chrono accepts as times beyond TimeText is not specified."
  },
  {
   "property": "C68",
   "status": "proved",
   "theorems": [
    "OsmIo.C68_close_complete",
    "OsmIo.C68_no_deadlock",
    "OsmIo.C68_schedules_end",
    "OsmIo.C68_file_grows",
    "OsmIo.C68_lost_order",
    "OsmIo.C68_header_missing"
   ],
   "note": "command_executor::ThreadPool is outside of the repository; its assumed behaviour is stated in Model/ParallelSystem.lean."
  },
  {
   "property": "C69",
   "status": "proved",
   "theorems": [
    "OsmIo.C69_calls",
    "OsmIo.C69_returned",
    "OsmIo.C69_effect",
    "OsmIo.C69_complete",
    "OsmIo.C69_no_deadlock"
   ],
   "note": "What command_executor does with a thread whose command failed is left open: it may go on or stop."
  },
  {
   "property": "C70",
   "status": "proved",
   "theorems": [
    "OsmIo.C70_complete",
    "OsmIo.C70_exact",
    "OsmIo.C70_same_file",
    "OsmIo.C70_reads_back",
    "OsmIo.C70_no_deadlock",
    "OsmIo.C70_schedules_end",
    "OsmIo.C70_schedule_matters"
   ],
   "note": "Product of the reader pool and the parallel writer system. C70_schedule_matters: witness that with a small buffer the outcome depends on the schedule."
  },
  {
   "property": "C71",
   "status": "proved",
   "theorems": [
    "OsmIo.C71_text",
    "OsmIo.C71_total",
    "OsmIo.C71_order",
    "OsmIo.C71_replication_time",
    "OsmIo.C71_dump_form"
   ],
   "note": "chrono is modelled as documented (calendar of C66)."
  },
  {
   "property": "C72",
   "status": "proved",
   "theorems": [
    "OsmIo.C72_sequential",
    "OsmIo.C72_parallel",
    "OsmIo.C72_unsupported",
    "OsmIo.C72_damaged",
    "OsmIo.C72_damaged_first"
   ],
   "note": "Whole programs on published files."
  },
  {
   "property": "C73",
   "status": "proved",
   "theorems": [
    "OsmIo.C73_complete",
    "OsmIo.C73_reads_back",
    "OsmIo.C73_ends",
    "OsmIo.C73_order_lost",
    "OsmIo.C73_complete_shown",
    "OsmIo.C73_reads_back_shown",
    "OsmIo.C73_ends_shown"
   ],
   "note": "C73_order_lost is about a sort that puts Sentinels first, which the documentation of slice::sort does not exclude."
  },
  {
   "property": "C74",
   "status": "proved",
   "theorems": [
    "OsmIo.C74_node",
    "OsmIo.C74_object",
    "OsmIo.C74_node_tag",
    "OsmIo.C74_object_tag",
    "OsmIo.C74_way_node",
    "OsmIo.C74_member",
    "OsmIo.C74_changeset",
    "OsmIo.C74_user",
    "OsmIo.C74_owner_row",
    "OsmIo.C74_object_row",
    "OsmIo.C74_program"
   ],
   "note": "Nothing is said about times of another form; the whole-dump theorems are about the users, changesets, nodes, ways and relations tables."
  },
  {
   "property": "C75",
   "status": "proved",
   "theorems": [
    "OsmIo.C75_file",
    "OsmIo.C75_reads_back",
    "OsmIo.C75_overtakes",
    "OsmIo.C75_accepts",
    "OsmIo.C75_copy",
    "OsmIo.C75_order_lost",
    "OsmIo.C75_close_twice"
   ],
   "note": "C75_order_lost: witness that a list overtakes a buffered element."
  },
  {
   "property": "C76",
   "status": "proved",
   "theorems": [
    "OsmIo.C76_prints",
    "OsmIo.C76_bad_time",
    "OsmIo.C76_refused",
    "OsmIo.C76_checked",
    "OsmIo.C76_wrapped_time"
   ],
   "note": "Display of f64 is a parameter; the multiplication by 10^6 wraps as in a release build."
  },
  {
   "property": "C77",
   "status": "proved",
   "theorems": [
    "OsmIo.C77_dealt",
    "OsmIo.C77_orphan",
    "OsmIo.C77_nothing_lost"
   ],
   "note": "For dumps with readable rows whose changesets have owners; Dealt is a specification of its own (Spec/ApidbJoin) and determines the shares."
  },
  {
   "property": "C78",
   "status": "proved",
   "theorems": [
    "OsmIo.C78_reported",
    "OsmIo.C78_at_once",
    "OsmIo.C78_success",
    "OsmIo.C78_works",
    "OsmIo.C78_first_error",
    "OsmIo.C78_readable",
    "OsmIo.C78_retry"
   ],
   "note": "The fate of each write_all is an arbitrary function; the last theorem is the finding that elements of a failed block are lost."
  },
  {
   "property": "C79",
   "status": "proved",
   "theorems": [
    "OsmIo.C79_dump",
    "OsmIo.C79_complete",
    "OsmIo.C79_lag",
    "OsmIo.C79_first_error",
    "OsmIo.C79_drop_silent"
   ],
   "note": "std::io::BufWriter is modelled after its documentation and source (capacity 8192)."
  },
  {
   "property": "C80",
   "status": "proved",
   "theorems": [
    "OsmIo.C80_beginning",
    "OsmIo.C80_complete",
    "OsmIo.C80_body",
    "OsmIo.C80_silent",
    "OsmIo.C80_open",
    "OsmIo.C80_parallel",
    "OsmIo.C80_parallel_silent"
   ],
   "note": "Faults are an arbitrary predicate on the operations of the reader."
  },
  {
   "property": "C81",
   "status": "proved",
   "theorems": [
    "OsmIo.C81_finite",
    "OsmIo.C81_large",
    "OsmIo.C81_reading",
    "OsmIo.C81_near",
    "OsmIo.C81_special",
    "OsmIo.C81_special_read",
    "OsmIo.C81_box_finite",
    "OsmIo.C81_box_nan",
    "OsmIo.C81_box_stays_nan",
    "OsmIo.C81_box_text",
    "OsmIo.C81_box_points",
    "OsmIo.C81_box_boxes",
    "OsmIo.C81_tile_finite",
    "OsmIo.C81_tile_special",
    "OsmIo.C81_tile_range",
    "OsmIo.C81_tile_beyond",
    "OsmIo.C81_arithmetic",
    "OsmIo.C81_order"
   ],
   "note": "Also shows that the simplified arithmetic of the other theorems is exact for every finite f64. The signs of zeros are not represented."
  },
  {
   "property": "C82",
   "status": "proved",
   "theorems": [
    "OsmIo.C82_success",
    "OsmIo.C82_beginning",
    "OsmIo.C82_error",
    "OsmIo.C82_no_deadlock",
    "OsmIo.C82_schedules_end",
    "OsmIo.C82_readable"
   ],
   "note": "As in C68 a panic stops the system; what command_executor does with the other threads after a panic is not modelled."
  },
  {
   "property": "C83",
   "status": "proved",
   "theorems": [
    "OsmIo.C83_block",
    "OsmIo.C83_header",
    "OsmIo.C83_fits",
    "OsmIo.C83_header_fits",
    "OsmIo.C83_each",
    "OsmIo.C83_roundtrip",
    "OsmIo.C83_parallel",
    "OsmIo.C83_published",
    "OsmIo.C83_no_limit",
    "OsmIo.OsmIo.C83_runs",
    "OsmIo.C83_parallel_copy",
    "OsmIo.C83_parallel_dump"
   ],
   "note": "That zlib does not make data much larger is the hypothesis Modest. C83_fits gives the hypotheses Fits, RunsFit and HeaderFits of the other theorems from the content of the elements."
  },
  {
   "property": "C84",
   "status": "proved",
   "theorems": [
    "OsmIo.C84_complete",
    "OsmIo.C84_iteration",
    "OsmIo.C84_published"
   ],
   "note": "Complete (Spec/Complete.lean) lists what a message must have; the theorems give both directions."
  },
  {
   "property": "C85",
   "status": "proved",
   "theorems": [
    "OsmIo.C85_write_same",
    "OsmIo.C85_write",
    "OsmIo.C85_read_same",
    "OsmIo.C85_read",
    "OsmIo.C85_published",
    "OsmIo.C85_read_published",
    "OsmIo.C85_roundtrip",
    "OsmIo.C85_builds_differ",
    "OsmIo.C85_between_builds"
   ],
   "note": "Steps (Spec/Format.lean) and NoOverflow (Spec/Checked.lean) state the conditions in integer arithmetic. C85_write assumes coordinates within 360 degrees and a block below 2^31 bytes."
  },
  {
   "property": "C86",
   "status": "proved",
   "theorems": [
    "OsmIo.C86_one_meaning",
    "OsmIo.C86_meaning",
    "OsmIo.C86_published",
    "OsmIo.C86_block",
    "OsmIo.C86_blocks",
    "OsmIo.C86_elements",
    "OsmIo.C86_open"
   ],
   "note": "Spec/Lenient.lean (messages), Spec/Meaning.lean (elements of a block) and Spec/LenientFile.lean (blocks and files) are the rules; all statements are equivalences. Lengths below 2^63 because usize has 64 bits."
  },
  {
   "property": "C87",
   "status": "proved",
   "theorems": [
    "OsmIo.C87_blobs",
    "OsmIo.C87_ends",
    "OsmIo.C87_parallel",
    "OsmIo.C87_counts",
    "OsmIo.C87_box",
    "OsmIo.C87_silent"
   ],
   "note": "Spec/Frames.lean: Frames, Leads, Gives. C87_silent is a concrete file in which a damaged block is left out without notice."
  },
  {
   "property": "C88",
   "status": "proved",
   "theorems": [
    "OsmIo.C88_read",
    "OsmIo.C88_own",
    "OsmIo.C88_before",
    "OsmIo.C88_from_here_on",
    "OsmIo.C88_cut",
    "OsmIo.C88_silent",
    "OsmIo.C88_program"
   ],
   "note": "Spec/FailingTables.lean: Patchy (rows with gaps), DealtPast, Elements. C88_silent: a dump none of whose objects can be read is read like an empty one."
  },
  {
   "property": "C89",
   "status": "proved",
   "theorems": [
    "OsmIo.C89_any",
    "OsmIo.C89_plain",
    "OsmIo.C89_determined",
    "OsmIo.C89_own",
    "OsmIo.C89_lines",
    "OsmIo.C89_same",
    "OsmIo.C89_program"
   ],
   "note": "Spec/AnyDump.lean: Items, DealtAny, Phase, Gives. Lines of users, changesets, nodes, ways and relations whose only fault is the form of a time are outside the hypotheses (the forms chrono accepts are not modelled completely). C89_same: the model with failing reads agrees with the ordinary one when no read fails."
  },
  {
   "property": "C90",
   "status": "proved",
   "theorems": [
    "OsmIo.C90_queues",
    "OsmIo.C90_waiting",
    "OsmIo.C90_waiting_all",
    "OsmIo.C90_waiting_unbounded",
    "OsmIo.C90_buffer_grows",
    "OsmIo.C90_buffer_sorted"
   ],
   "note": "Queue length 256 and 4 encoding threads are the parameters cap and threads of the configuration."
  },
  {
   "property": "C91",
   "status": "proved",
   "theorems": [
    "OsmIo.C91_rewrite",
    "OsmIo.C91_copy_again",
    "OsmIo.C91_box_moves",
    "OsmIo.C91_box_settles"
   ],
   "note": "C91_box_moves shows that the condition SettledBox of C91_rewrite is necessary (sides up to 180 degrees)."
  },
  {
   "property": "C92",
   "status": "proved",
   "theorems": [
    "OsmIo.C92_twice",
    "OsmIo.C92_there_and_back_again",
    "OsmIo.C92_repeated_keys"
   ],
   "note": "Repeated tag keys are excluded: their order among each other is not fixed by the sort key. C92_repeated_keys shows that they must be."
  },
  {
   "property": "C93",
   "status": "proved",
   "theorems": [
    "OsmIo.C93_unreadable",
    "OsmIo.C93_parallel_silent",
    "OsmIo.C93_written_lost"
   ],
   "note": "When only the size before compression is negative, the parallel reader leaves out this block alone (C87)."
  },
  {
   "property": "C94",
   "status": "proved",
   "theorems": [
    "OsmIo.C94_unclosed",
    "OsmIo.C94_torn"
   ],
   "note": "The second part is for the moment between closing users and closing way_nodes; other moments within close leave other tables out."
  },
  {
   "property": "C95",
   "status": "proved",
   "theorems": [
    "OsmIo.C95_files",
    "OsmIo.C95_read_back",
    "OsmIo.C95_sortable",
    "OsmIo.C95_current_twice",
    "OsmIo.C95_renamed"
   ],
   "note": ""
  },
  {
   "property": "C96",
   "status": "proved",
   "theorems": [
    "OsmIo.C96_close_complete",
    "OsmIo.C96_no_file",
    "OsmIo.C96_never_called",
    "OsmIo.C96_panics_iff",
    "OsmIo.C96_room",
    "OsmIo.C96_lucky",
    "OsmIo.C96_late_witness"
   ],
   "note": ""
  },
  {
   "property": "C97",
   "status": "proved",
   "theorems": [
    "OsmIo.C97_blocks",
    "OsmIo.C97_elements_first_only",
    "OsmIo.C97_open",
    "OsmIo.C97_parallel_all",
    "OsmIo.C97_parallel_runs",
    "OsmIo.C97_counts_all",
    "OsmIo.C97_box_all",
    "OsmIo.C97_headers_left_out"
   ],
   "note": ""
  },
  {
   "property": "C98",
   "status": "proved",
   "theorems": [
    "OsmIo.C98_growing",
    "OsmIo.C98_still",
    "OsmIo.C98_behind",
    "OsmIo.C98_caught_up",
    "OsmIo.C98_onto_itself",
    "OsmIo.C98_onto_itself_empty",
    "OsmIo.C98_replaced",
    "OsmIo.C98_growing_parallel",
    "OsmIo.C98_parallel_runs"
   ],
   "note": "The mixed files are a witness."
  },
  {
   "property": "C99",
   "status": "proved",
   "theorems": [
    "OsmIo.C99_sequential",
    "OsmIo.C99_blocks",
    "OsmIo.C99_same",
    "OsmIo.C99_copies"
   ],
   "note": ""
  },
  {
   "property": "C100",
   "status": "proved",
   "theorems": [
    "OsmIo.C100_stable",
    "OsmIo.C100_one_stable_sort",
    "OsmIo.C100_stably_sorted",
    "OsmIo.C100_same_elements",
    "OsmIo.C100_reads"
   ],
   "note": ""
  },
  {
   "property": "C101",
   "status": "proved",
   "theorems": [
    "OsmIo.C101_last_wins",
    "OsmIo.C101_unique",
    "OsmIo.C101_read_back"
   ],
   "note": "Settings.SetBy in Spec/InfoCalls.lean. C101_read_back has the hypotheses of C15: metadata not entirely empty, header within the size limits, required features supported."
  },
  {
   "property": "C102",
   "status": "proved",
   "theorems": [
    "OsmIo.C102_calls",
    "OsmIo.C102_nothing_lost",
    "OsmIo.C102_other_thread",
    "OsmIo.C102_single",
    "OsmIo.C102_same_id"
   ],
   "note": "Spec/Accumulators.lean: waiting, answer. That ids made by Uuid::new_v4 differ is the hypothesis Function.Injective ids. C102_single ties the model of one accumulator used for C28, C51 and C70 to the shared maps."
  },
  {
   "property": "C103",
   "status": "proved",
   "theorems": [
    "OsmIo.C103_calls",
    "OsmIo.C103_order"
   ],
   "note": "Spec/TakeCalls.lean: answerTo, withFields."
  },
  {
   "property": "C104",
   "status": "proved",
   "theorems": [
    "OsmIo.C104_determined",
    "OsmIo.C104_order",
    "OsmIo.C104_programs",
    "OsmIo.C104_order_matters"
   ],
   "note": "Back in Spec/ApidbRoundTrip.lean says how elements come back."
  },
  {
   "property": "C105",
   "status": "proved",
   "theorems": [
    "OsmIo.C105_too_far",
    "OsmIo.C105_same_version",
    "OsmIo.C105_tab_in_name"
   ],
   "note": "The last two show by examples that what Storable (C53) asks for is needed."
  },
  {
   "property": "C106",
   "status": "proved",
   "theorems": [
    "OsmIo.C106_two_steps",
    "OsmIo.C106_either_order",
    "OsmIo.C106_rounding_shows"
   ],
   "note": "C106_rounding_shows shows why the condition must not be about what is rounded."
  },
  {
   "property": "C107",
   "status": "proved",
   "theorems": [
    "OsmIo.C107_numbers",
    "OsmIo.C107_proper",
    "OsmIo.C107_reads",
    "OsmIo.C107_round_trip",
    "OsmIo.C107_faithful",
    "OsmIo.C107_shown",
    "OsmIo.C107_shown_apart",
    "OsmIo.C107_shown_refused"
   ],
   "note": "f64::from_str and Display of f64 are parts of the standard library: the first is modelled, of the second only that its texts read back is used."
  }
 ]
}