{
 "claims": [
  {
   "property": "C01",
   "status": "partial",
   "theorems": [
    "LibLAS.scalar_little_endian",
    "LibLAS.scalar_store_load",
    "LibLAS.attribute_little_endian_partial",
    "LibLAS.attribute_load_store",
    "LibLAS.record_vector_round_trip",
    "LibLAS.record_reversed_on_big_host",
    "LibLAS.attribute_store_not_little_endian_on_big_host",
    "LibLAS.Point.observe_is_las_layout"
   ],
   "note": "Holds for header/VLR scalars on both byte orders and for point attributes on little-endian hosts; refuted for point attributes on big-endian hosts (the endian_value loops are arithmetic and are reversed there)."
  },
  {
   "property": "C02",
   "status": "proved",
   "theorems": [
    "LibLAS.Point.set_then_get",
    "LibLAS.Point.setter_history"
   ],
   "note": "All hosts, both build options, formats 0-3, any record length that holds the format."
  },
  {
   "property": "C03",
   "status": "proved",
   "theorems": [
    "LibLAS.Point.packed_flags_exact",
    "LibLAS.Point.set_then_get"
   ],
   "note": ""
  },
  {
   "property": "C04",
   "status": "proved",
   "theorems": [
    "LibLAS.Point.unsupported_attribute",
    "LibLAS.Point.set_then_get",
    "LibLAS.Point.setter_history"
   ],
   "note": "Formats 0-3 (4 and 5 are rejected by the header)."
  },
  {
   "property": "C05",
   "status": "partial",
   "theorems": [
    "LibLAS.Point.coordinate_get_set_partial",
    "LibLAS.Point.coordinate_set_nearest",
    "LibLAS.Point.set_coordinates_nearest",
    "LibLAS.Point.coordinate_stored_nearest",
    "LibLAS.Point.coordinate_round_trip_fails",
    "LibLAS.Point.coordinate_out_of_range_ub"
   ],
   "note": "Proved for well-conditioned axes (|offset| <= 2^50 scale units); refuted beyond. Out of 32-bit range the cast is undefined behaviour."
  },
  {
   "property": "C06",
   "status": "proved",
   "theorems": [
    "LibLAS.Point.valid_iff"
   ],
   "note": ""
  },
  {
   "property": "C07",
   "status": "partial",
   "theorems": [
    "LibLAS.Point.equal_symmetric",
    "LibLAS.Point.equal_reflexive_partial",
    "LibLAS.Point.equal_ignores_attributes",
    "LibLAS.Point.equal_not_transitive"
   ],
   "note": "Transitivity is false of the code (tolerance 1e-5); reflexivity needs finite coordinates."
  },
  {
   "property": "C08",
   "status": "partial",
   "theorems": [
    "LibLAS.Point.set_header_same_scaling_partial",
    "LibLAS.Point.set_header_rescale_partial",
    "LibLAS.Point.set_header_same_length",
    "LibLAS.Point.set_header_zero_record",
    "LibLAS.Point.set_header_user_time_dim_throws"
   ],
   "note": "Refuted for equal record lengths with different formats, for all-zero records and for a user dimension named Time."
  },
  {
   "property": "C09",
   "status": "proved",
   "theorems": [
    "LibLAS.classification_run_spec",
    "LibLAS.classification_history",
    "LibLAS.classification_view_injective",
    "LibLAS.class_name_total"
   ],
   "note": ""
  },
  {
   "property": "C10",
   "status": "proved",
   "theorems": [
    "LibLAS.color_make_exact",
    "LibLAS.color_channels_independent"
   ],
   "note": ""
  },
  {
   "property": "C100",
   "status": "partial",
   "theorems": [
    "LibLAS.PointLife.point_keeps_header_partial",
    "LibLAS.PointLife.usable_exactly",
    "LibLAS.PointLife.change_reaches_exactly",
    "LibLAS.PointLife.copy_keeps_record",
    "LibLAS.PointLife.change_follows",
    "LibLAS.PointLife.copy_dies_with_reader",
    "LibLAS.PointLife.rehome_too_late",
    "LibLAS.PointLife.format_change_undefined",
    "LibLAS.PointLife.unscaled_always"
   ],
   "note": "Proved for every program that changes or destroys headers, and closes readers, only when no living point or copy has their header: the same codes and points as if every point had its header as a value. For all programs: exactly when a point can be used (usable_exactly) and what a change of a header does (change_reaches_exactly). Refuted for every header and record: a change of the handle's header changes the point (change_follows); a copy of a point that was read is unusable after the reader is destroyed (copy_dies_with_reader); a point whose header is gone cannot be given another (rehome_too_late); LASPoint_SetData after a change of format is undefined (format_change_undefined). Of a header what points use of it is modelled; LASPoint_Destroy of a reader's own point is counted as undefined only when the reader is destroyed."
  },
  {
   "property": "C101",
   "status": "partial",
   "theorems": [
    "LibLAS.ProjectId.text_read_exactly",
    "LibLAS.ProjectId.text_unambiguous",
    "LibLAS.ProjectId.text_round_trip",
    "LibLAS.ProjectId.text_distinguishes",
    "LibLAS.ProjectId.set_project_id_partial",
    "LibLAS.ProjectId.project_id_copied",
    "LibLAS.ProjectId.guid_handles",
    "LibLAS.ProjectId.guid_given",
    "LibLAS.ProjectId.project_id_through_file",
    "LibLAS.ProjectId.null_equals_everything",
    "LibLAS.ProjectId.null_text_undefined",
    "LibLAS.ProjectId.new_guid_is_memory",
    "LibLAS.ProjectId.trailing_accepted"
   ],
   "note": "Proved: which texts are read, as which identifier, that the printed text is read back, and what the handles do with it. Refuted: through a file the first three groups come back with their bytes reversed (project_id_through_file); NULL is equal to everything (null_equals_everything) or undefined behaviour (null_text_undefined); a new identifier is whatever the memory held (new_guid_is_memory); with Boost before 1.67 text after the identifier is ignored (trailing_accepted). Boost.UUID is not in the repository; it is modelled after its source."
  },
  {
   "property": "C102",
   "status": "partial",
   "theorems": [
    "LibLAS.Xml.header_xml_partial",
    "LibLAS.Xml.header_xml_distinguishes",
    "LibLAS.Xml.info_header",
    "LibLAS.Xml.header_xml_roots",
    "LibLAS.Xml.header_xml_count_undefined",
    "LibLAS.Xml.header_xml_null",
    "LibLAS.Xml.point_xml_partial",
    "LibLAS.Xml.point_xml_null",
    "LibLAS.Xml.info_point"
   ],
   "note": "Proved: the text is read by an XML parser and says everything about the header (or point); two headers with the same text agree in it; lasinfo prints one document with it. The text of a double (16 digits) is a parameter. Refuted: the text of LASHeader_GetXML and LASPoint_GetXML has several outermost elements, so it is no XML document (header_xml_roots, point_xml_partial); a record count that is too large is followed beyond the records (header_xml_count_undefined); a handle without a header is followed (header_xml_null). Headers read from a file have the right number of records (C12, C15)."
  },
  {
   "property": "C103",
   "status": "partial",
   "theorems": [
    "LibLAS.Handles.record_shows_last",
    "LibLAS.Handles.color_shows_last",
    "LibLAS.Handles.compressed_shows_last",
    "LibLAS.Handles.others_do_not_matter",
    "LibLAS.Handles.header_keeps_record",
    "LibLAS.Handles.reference_keeps_record",
    "LibLAS.Handles.reference_text",
    "LibLAS.Handles.header_keeps_reference",
    "LibLAS.Handles.schema_sizes",
    "LibLAS.Handles.calls_report_partial",
    "LibLAS.Handles.point_color",
    "LibLAS.Handles.refused_text_stays",
    "LibLAS.Handles.proj4_says_none",
    "LibLAS.Handles.mistakes_undefined",
    "LibLAS.Handles.schema_exception_escapes"
   ],
   "note": "Proved for every program over any number of handles: values shown are the last accepted, handles are independent, copies are kept, failures are reported once. Refuted: a refused text stays and the records are lost (refused_text_stays); LASSRS_SetProj4 says LE_None and discards the records (proj4_says_none); out of range numbers, NULL texts and NULL header handles are undefined (mistakes_undefined); LASSchema_Create lets an exception through (schema_exception_escapes). Missing: the text of the reference got from a header, LASSRS_SetVerticalCS, GTIF handles."
  },
  {
   "property": "C104",
   "status": "partial",
   "theorems": [
    "LibLAS.LasCommon.summarize_points_partial",
    "LibLAS.LasCommon.repair_header_partial",
    "LibLAS.LasCommon.repaired_partial",
    "LibLAS.LasCommon.no_points_exit",
    "LibLAS.LasCommon.stale_error_exits",
    "LibLAS.LasCommon.counts_stay_wrong",
    "LibLAS.LasCommon.cut_off_not_noticed",
    "LibLAS.LasCommon.zero_scale_undefined"
   ],
   "note": "Proved for every reader and every sequence of records of a well-scaled header: counters, box and extremes of all attributes of SummarizePoints are exact (of the time when none is a NaN); repair_header puts the box in the header, changes nothing but box and counts, and the counts are those of the points when each is below 256. Refuted: counts equal modulo 256 are not repaired (counts_stay_wrong, a file of 256 points); a stale error ends the program (stale_error_exits); a file cut off inside a record is not noticed (cut_off_not_noticed); scale 0 is undefined (zero_scale_undefined). Left out: the texts printed. `int` counters wrap in the model."
  },
  {
   "property": "C105",
   "status": "partial",
   "theorems": [
    "LibLAS.Progress.meter_shows_progress",
    "LibLAS.Progress.meter_complete",
    "LibLAS.Progress.meter_complete_late",
    "LibLAS.Progress.second_meter",
    "LibLAS.Progress.meter_after_almost",
    "LibLAS.Progress.every_meter",
    "LibLAS.Progress.single_point_silent",
    "LibLAS.Progress.unfinished_meter_continued",
    "LibLAS.Progress.no_points_undefined"
   ],
   "note": "Proved for every number of points and every number of files of at least two points: what is shown at each moment, and that each file gets one whole meter. Refuted: nothing is shown for a second file of one point (single_point_silent); after a file that ended early or was filtered, the next meter only shows what is left of the first (unfinished_meter_continued, every such pair of files); a count of zero is undefined when a point is there (no_points_undefined)."
  },
  {
   "property": "C106",
   "status": "proved",
   "theorems": [
    "LibLAS.Copies.one_file",
    "LibLAS.Copies.same_answer",
    "LibLAS.Copies.fails_as_files_do",
    "LibLAS.Copies.destroyed_object_undefined",
    "LibLAS.Copies.writer_copies",
    "LibLAS.Copies.copies_write_one_file",
    "LibLAS.Copies.reader_copies",
    "LibLAS.Copies.copy_takes_points"
   ],
   "note": "Proved for every program that makes, copies, assigns, destroys and calls any number of objects, over any number of files (each on a stream of its own that outlives them; a program ends with its first exception). The expectation that a copy of a reader has a place of its own is refuted for every file of two points (copy_takes_points)."
  },
  {
   "property": "C107",
   "status": "partial",
   "theorems": [
    "LibLAS.Index.prepared_again_partial",
    "LibLAS.Index.none_left",
    "LibLAS.Index.failed_still_ready",
    "LibLAS.Index.number_kept",
    "LibLAS.Index.readers_left",
    "LibLAS.Index.grown_usual",
    "LibLAS.Index.area_then_broken",
    "LibLAS.Index.area_after_other"
   ],
   "note": "Proved by induction over all histories of Prep: as long as the indexes met give 43 as the number of their data records, Prep returns, and leaves as header and readiness, what it would on a new object (prepared_again_partial); nothing is left over if all but the last Prep had readers of the caller (none_left). Refuted: after a Prep that fails for its stream an object that was ready says it is still ready, and its queries are empty (failed_still_ready); the number of an earlier index goes into the header of the next one while the data records always have 43, so that they are not found (number_kept, area_after_other); all readers made but the last are never deleted (readers_left). Missing: the same about the members Filter sets itself, and about index headers that cannot be read (undefined in the model)."
  },
  {
   "property": "C11",
   "status": "proved",
   "theorems": [
    "LibLAS.vlr_user_id",
    "LibLAS.vlr_description",
    "LibLAS.header_system_id",
    "LibLAS.header_software_id",
    "LibLAS.header_signature_version"
   ],
   "note": "For every text and every record/header state."
  },
  {
   "property": "C12",
   "status": "proved",
   "theorems": [
    "LibLAS.vlr_edit_step",
    "LibLAS.vlr_bookkeeping",
    "LibLAS.vlr_count_and_block_size",
    "LibLAS.vlr_count_set_ub"
   ],
   "note": "For every sequence of edits; also: setting the advertised count beyond the list makes the block size undefined."
  },
  {
   "property": "C13",
   "status": "partial",
   "theorems": [
    "LibLAS.vlrs_round_trip",
    "LibLAS.default_vlr_corrupts"
   ],
   "note": "Proved for every storable header (any number of records whose sizes are set); refuted for a default-constructed record, whose size field does not describe its data."
  },
  {
   "property": "C14",
   "status": "partial",
   "theorems": [
    "LibLAS.header_round_trip_partial",
    "LibLAS.project_id_lost",
    "LibLAS.source_id_lost"
   ],
   "note": "All fields except the project id (stored byte-swapped) and, for version 1.0, source id/reserved; both refuted."
  },
  {
   "property": "C15",
   "status": "partial",
   "theorems": [
    "LibLAS.data_offset_partial",
    "LibLAS.data_offset_version0",
    "LibLAS.padding_undefined",
    "LibLAS.short_header_overwritten"
   ],
   "note": "Proved up to the two signature bytes of padding the writer supports; padding over two bytes reads outside a literal, header size below 227 makes records overwrite the header."
  },
  {
   "property": "C16",
   "status": "partial",
   "theorems": [
    "LibLAS.record_length_is_sum",
    "LibLAS.standard_dimension_offsets",
    "LibLAS.user_dimension_offsets",
    "LibLAS.record_bits_is_sum",
    "LibLAS.packed_dimension_offsets",
    "LibLAS.record_length_not_sum_unaligned",
    "LibLAS.record_length_truncates",
    "LibLAS.record_length_stale_after_set"
   ],
   "note": "Proved for any list of whole-byte user dimensions with new names and total up to 65535 bytes; refuted for dimensions that are not whole bytes, for totals over 65535 and after SetDimension with another size."
  },
  {
   "property": "C17",
   "status": "proved",
   "theorems": [
    "LibLAS.schema_names_positions_unique",
    "LibLAS.schema_lookup_exact",
    "LibLAS.schema_lookup_by_index",
    "LibLAS.schema_enumeration_ordered"
   ],
   "note": "For every history of add/remove/set/format-change, including failed ones."
  },
  {
   "property": "C18",
   "status": "partial",
   "theorems": [
    "LibLAS.set_format_keeps_user_dims",
    "LibLAS.set_unsupported_format_destroys"
   ],
   "note": "First half proved for every reachable schema; second half refuted: formats 4 and 5 throw after discarding time, colour and all user dimensions."
  },
  {
   "property": "C19",
   "status": "partial",
   "theorems": [
    "LibLAS.header_never_equals_another",
    "LibLAS.header_equals_itself_partial",
    "LibLAS.vlr_equal_ignores_data",
    "LibLAS.vlr_equal_iff"
   ],
   "note": "Refuted: char-array members are compared by address, so distinct header objects never compare equal; self-comparison holds."
  },
  {
   "property": "C20",
   "status": "proved",
   "theorems": [
    "LibLAS.written_is_read",
    "LibLAS.written_is_read_schema"
   ],
   "note": "For every storable header and every list of points."
  },
  {
   "property": "C21",
   "status": "partial",
   "theorems": [
    "LibLAS.append_keeps_points",
    "LibLAS.append_possible",
    "LibLAS.append_after_padding"
   ],
   "note": "Proved for any number of append sessions on files without padding; refuted with padding (append_after_padding)."
  },
  {
   "property": "C22",
   "status": "proved",
   "theorems": [
    "LibLAS.crash_new_file",
    "LibLAS.crash_append",
    "LibLAS.log_is_history"
   ],
   "note": "For every session of point writes, every crash point between and inside record writes; writes reach the file in order."
  },
  {
   "property": "C23",
   "status": "proved",
   "theorems": [
    "LibLAS.random_access",
    "LibLAS.subscript",
    "LibLAS.opened_length"
   ],
   "note": "For every file the reader accepts, every history of reads, seeks, filter and transform changes. Record length must be positive and under 64K (opened_length: automatic unless a schema record is parsed)."
  },
  {
   "property": "C24",
   "status": "partial",
   "theorems": [
    "LibLAS.sequential_after_random_partial",
    "LibLAS.random_access_disturbs",
    "LibLAS.seek_restores"
   ],
   "note": "Refuted: the next sequential read follows the last random access. Exact behaviour proved; seeking restores the position."
  },
  {
   "property": "C25",
   "status": "partial",
   "theorems": [
    "LibLAS.filtered_reading_partial",
    "LibLAS.filtered_reading_fresh_partial",
    "LibLAS.filtered_reading_loses_last",
    "LibLAS.filtered_reading_invents"
   ],
   "note": "Exact: all accepted points, except that the last one is lost when the two before it are rejected; trailing bytes can be delivered as points."
  },
  {
   "property": "C26",
   "status": "partial",
   "theorems": [
    "LibLAS.reset_points_partial",
    "LibLAS.reset_header_partial",
    "LibLAS.reset_settings",
    "LibLAS.reset_doubles_records",
    "LibLAS.reset_truncated"
   ],
   "note": "After any history of calls and resets a reset reader answers every further sequence of calls as a fresh one (whole files, finite scaling, no readable schema record). The header is the same except that every variable record is repeated once per reset (refutes the property); in truncated files stale point bytes show (refuted)."
  },
  {
   "property": "C27",
   "status": "partial",
   "theorems": [
    "LibLAS.cached_transparent_partial",
    "LibLAS.cached_readAt_differs",
    "LibLAS.cached_failed_seek_differs",
    "LibLAS.cached_seek_past_end_ub",
    "LibLAS.cached_transforms_restart",
    "LibLAS.cached_filter_differs",
    "LibLAS.cached_seek_reset_differs",
    "LibLAS.cached_truncated_differs"
   ],
   "note": "Same reports as an uncached reader for every cache size and every history without filters whose sequential reads start from a position both readers agree on (opening, sequential reading, successful seek, reset after a read), on whole files; the remaining histories are refuted by concrete sessions."
  },
  {
   "property": "C28",
   "status": "proved",
   "theorems": [
    "LibLAS.iterator_visits_all",
    "LibLAS.iterator_visits_written",
    "LibLAS.visits_of_delivers",
    "LibLAS.iterator_past_end"
   ],
   "note": "For every file whose point records are all there."
  },
  {
   "property": "C29",
   "status": "proved",
   "theorems": [
    "LibLAS.malformed_rejected",
    "LibLAS.short_header_rejected",
    "LibLAS.compressed_rejected",
    "LibLAS.cut_header_accepted"
   ],
   "note": "For every byte string of header length; shorter ones too, up to 218 bytes. cut_header_accepted shows that 219 to 226 bytes are accepted."
  },
  {
   "property": "C30",
   "status": "partial",
   "theorems": [
    "LibLAS.truncated_file_partial",
    "LibLAS.truncated_file_invents",
    "LibLAS.truncated_random_access"
   ],
   "note": "Refuted: exactly one invented point is delivered at the cut. Exact behaviour proved for every cut of every file."
  },
  {
   "property": "C31",
   "status": "partial",
   "theorems": [
    "LibLAS.classification_filter_partial",
    "LibLAS.return_filter_partial",
    "LibLAS.last_return_filter_partial",
    "LibLAS.empty_list_accepts",
    "LibLAS.exclusion_rejects_all",
    "LibLAS.exclusion_filter_wrong",
    "LibLAS.validation_filter",
    "LibLAS.color_filter",
    "LibLAS.color_filter_swapped"
   ],
   "note": "Exact for inclusion filters with a non-empty list; an empty list accepts everything and an exclusion list of two or more classes rejects everything (refuted with witnesses)."
  },
  {
   "property": "C32",
   "status": "proved",
   "theorems": [
    "LibLAS.thin_keeps_multiples",
    "LibLAS.thin_zero"
   ],
   "note": "For every sequence of points; factor 0 is characterised separately."
  },
  {
   "property": "C33",
   "status": "partial",
   "theorems": [
    "LibLAS.continuous_complement",
    "LibLAS.continuous_text_partial",
    "LibLAS.continuous_text_double_partial",
    "LibLAS.not_equal_means_equal",
    "LibLAS.no_sign_throws"
   ],
   "note": "Exact for the five working signs; != is parsed as == (refuted)."
  },
  {
   "property": "C34",
   "status": "partial",
   "theorems": [
    "LibLAS.bounds_filter_2d",
    "LibLAS.bounds_filter_3d_partial",
    "LibLAS.bounds_filter_flat",
    "LibLAS.bounds_filter_low_dimension",
    "LibLAS.bounds_filter_wrong"
   ],
   "note": "Exact characterisation for every box; the cases that differ from the claim are refuted with witnesses."
  },
  {
   "property": "C35",
   "status": "partial",
   "theorems": [
    "LibLAS.box_contains_iff",
    "LibLAS.box_contains_itself",
    "LibLAS.box_contains_trans",
    "LibLAS.box_clip",
    "LibLAS.box_grow_point_partial",
    "LibLAS.box_grow_box_partial",
    "LibLAS.box_intersects_partial",
    "LibLAS.grow_empty_wrong",
    "LibLAS.grow_by_empty_wrong",
    "LibLAS.intersects_disjoint",
    "LibLAS.intersects_touching",
    "LibLAS.box_dimension_mismatch"
   ],
   "note": "Containment and clipping are proved for all boxes; growth for non-empty boxes; overlap refuted for some arrangements."
  },
  {
   "property": "C36",
   "status": "partial",
   "theorems": [
    "LibLAS.shift_expression_partial",
    "LibLAS.bad_term_rejected",
    "LibLAS.blank_expression",
    "LibLAS.negative_number_misread",
    "LibLAS.two_axes_accepted"
   ],
   "note": "Parsing proved for every well-formed expression; misread inputs shown by witnesses."
  },
  {
   "property": "C37",
   "status": "partial",
   "theorems": [
    "LibLAS.Chipper.chip_partitions_partial",
    "LibLAS.Chipper.chip_empty_undefined"
   ],
   "note": "proved in both modes (copying, sorting) for every conforming std::sort, every non-empty NaN-free point set with size*(size/capacity+1) <= 2^48; refuted for the empty set (out-of-bounds access). Larger sizes: the floating point partition table is not covered."
  },
  {
   "property": "C38",
   "status": "partial",
   "theorems": [
    "LibLAS.Chipper.chip_capacity_partial",
    "LibLAS.Chipper.partition_spec"
   ],
   "note": "same hypotheses as C37"
  },
  {
   "property": "C39",
   "status": "partial",
   "theorems": [
    "LibLAS.Chipper.chip_bounds_tight_partial"
   ],
   "note": "same hypotheses as C37"
  },
  {
   "property": "C40",
   "status": "partial",
   "theorems": [
    "LibLAS.Summary.summary_exact_partial",
    "LibLAS.Summary.summary_order_partial",
    "LibLAS.CoordinateSummary.coordinate_summary_exact_partial",
    "LibLAS.Summary.nan_time_order",
    "LibLAS.Summary.mixed_scales_wrong",
    "LibLAS.Summary.given_header_wrong",
    "LibLAS.Summary.class_flags_order"
   ],
   "note": "Exact and order-independent for every sequence of points of one format; refuted for undefined times, mixed scales and a given header of another scale."
  },
  {
   "property": "C41",
   "status": "partial",
   "theorems": [
    "LibLAS.Index.index_cells_partial",
    "LibLAS.Index.index_points_defined",
    "LibLAS.Index.index_refuted_outside"
   ],
   "note": "Proved for every sequence of fewer than 2^32 points inside the bounds, every grid and memory limit: the index is built, its cells together hold every id exactly once, each in the cell (and z part) its coordinates lie in up to rounding. The cell computation is in bounds for every double. Refuted when a point lies outside the bounds: the run of the previous point of a cell is extended over it."
  },
  {
   "property": "C42",
   "status": "proved",
   "theorems": [
    "LibLAS.Index.index_limit",
    "LibLAS.Index.index_refuted_no_temp"
   ],
   "note": "For every memory limit and every sequence of points, inside the bounds or not: same outcome, same cells, same runs. A temporary file name is needed; without one BuildIndex uses a null FILE (proved: undefined behaviour)."
  },
  {
   "property": "C43",
   "status": "partial",
   "theorems": [
    "LibLAS.Index.index_records",
    "LibLAS.Index.index_records_storable",
    "LibLAS.Index.index_file_partial",
    "LibLAS.Index.built_index_records",
    "LibLAS.Index.index_refuted_long"
   ],
   "note": "Proved for every list of cells of any sizes (fields in range): records of at most 65535 bytes, and reading them as a query does meets the same cells, parts and runs in the same order, in memory. Through a file: proved when no cell takes more than 65511 bytes; refuted for longer cells, whose last record carries more data than its length field says."
  },
  {
   "property": "C44",
   "status": "partial",
   "theorems": [
    "LibLAS.Index.index_query_partial",
    "LibLAS.Index.index_window_partial",
    "LibLAS.Index.index_query_refuted_edge",
    "LibLAS.Index.index_query_refuted_z_lost",
    "LibLAS.Index.index_query_refuted_z_wrong",
    "LibLAS.Index.index_query_refuted_touch",
    "LibLAS.Index.index_query_refuted_far",
    "LibLAS.Index.index_query_refuted_long"
   ],
   "note": "Proved for the index the library builds for every set of points inside its bounds and every window meeting the bounds: no id twice, no point outside the window, no point of the window missing, up to a margin of 2.3e-13 of the size of the bounds at the window's own edges; not filtering in z unless cells are not divided in z; points of cells taking more than 65511 bytes excepted. What is excepted is refuted: a point on an upper edge that is a cell border is missed; with cells divided in z, points of undivided cells are lost or wrongly returned; a window touching the bounds at an edge is not applied on that axis; a window far outside is undefined behaviour; an oversized cell is passed over."
  },
  {
   "property": "C45",
   "status": "proved",
   "theorems": [
    "LibLAS.Index.index_chunks",
    "LibLAS.Index.index_chunks_concat",
    "LibLAS.Index.built_index_chunks"
   ],
   "note": "For every index (cells of any sizes, records in any number, other records around it), every window, every chunk size and every finite sequence of requests (next piece, absolute position, steps forward and back, the reader anywhere before each), the answers are the corresponding pieces of the answer to the whole query; repeated next-piece requests put together are the whole answer. Request numbers are kept in the range where the sum with the position fits 32 bits. built_index_chunks instantiates it for the index the library builds."
  },
  {
   "property": "C46",
   "status": "proved",
   "theorems": [
    "LibLAS.file_type_by_extension"
   ],
   "note": "For every file name."
  },
  {
   "property": "C47",
   "status": "partial",
   "theorems": [
    "LibLAS.delivered_point_safe_partial",
    "LibLAS.short_record_unsafe"
   ],
   "note": "Proved when the record length is at least that of the format; refuted otherwise."
  },
  {
   "property": "C48",
   "status": "partial",
   "theorems": [
    "LibLAS.dimension_made",
    "LibLAS.add_new_dimension",
    "LibLAS.remove_obtained_dimension_partial",
    "LibLAS.set_unknown_dimension",
    "LibLAS.remove_fresh_dimension_removes_X",
    "LibLAS.add_existing_dimension_ignored",
    "LibLAS.schema_equality_prefix",
    "LibLAS.schema_equality_ub"
   ],
   "note": "Proved for new names and for dimension objects obtained from the schema; refuted for caller-built dimension objects."
  },
  {
   "property": "C49",
   "status": "partial",
   "theorems": [
    "LibLAS.written_records_partial",
    "LibLAS.records_kept_partial",
    "LibLAS.geo_record_dropped",
    "LibLAS.geo_record_moved"
   ],
   "note": "The exact list of records of a new file; all caller's records are kept in order when none is claimed by the library. Refuted: GeoTIFF records that are not in the spatial reference object are dropped, those that are move to the end."
  },
  {
   "property": "C50",
   "status": "partial",
   "theorems": [
    "LibLAS.box_volume_zero",
    "LibLAS.box_volume_wrong",
    "LibLAS.box_equal_iff",
    "LibLAS.box_equal_prefix",
    "LibLAS.box_shift_scale"
   ],
   "note": "Volume is always zero (refuted); equality compares only the dimensions of the left box."
  },
  {
   "property": "C51",
   "status": "partial",
   "theorems": [
    "LibLAS.shift_moves_axis_partial",
    "LibLAS.shift_sequence",
    "LibLAS.Kernel.shift_all",
    "LibLAS.shift_check_overflows"
   ],
   "note": "Proved when the shifted value keeps clear of the 32-bit limits; the limit check itself overflows (refuted)."
  },
  {
   "property": "C52",
   "status": "proved",
   "theorems": [
    "LibLAS.Index.index_header",
    "LibLAS.Index.index_header_length",
    "LibLAS.Index.headerRecord_storable",
    "LibLAS.Index.index_header_file"
   ],
   "note": "For every header whose numbers fit their fields and texts of any length, in memory and through a written file."
  },
  {
   "property": "C53",
   "status": "partial",
   "theorems": [
    "LibLAS.error_stack_partial",
    "LibLAS.reset_removes_half",
    "LibLAS.reset_keeps_errors"
   ],
   "note": "Proved for every history in which a reset finds at most one error; what a reset does in general is proved too: it removes only the newer half, so the property is refuted for resets with two or more errors."
  },
  {
   "property": "C54",
   "status": "partial",
   "theorems": [
    "LibLAS.point_calls_report",
    "LibLAS.c_setter_history",
    "LibLAS.header_calls_report",
    "LibLAS.c_reading",
    "LibLAS.seek_reports",
    "LibLAS.time_dropped_silently",
    "LibLAS.format_failure_changes",
    "LibLAS.seek_says_none"
   ],
   "note": "Proved for all point and header setters on all objects and for reading after any history of calls. Refuted: setting time or colour on a point without them says success; LASHeader_SetDataFormatId changes the header before failing; LASReader_Seek says success when it fails. Texts of exceptions are not modelled."
  },
  {
   "property": "C55",
   "status": "partial",
   "theorems": [
    "LibLAS.null_handles_partial",
    "LibLAS.null_handles_followed"
   ],
   "note": "Proved for the modelled point, variable record and reader functions and for header handles without a header; refuted for NULL header handles, which every header function follows, and for NULL writers."
  },
  {
   "property": "C56",
   "status": "partial",
   "theorems": [
    "LibLAS.c_session",
    "LibLAS.c_append_session",
    "LibLAS.writer_refusals",
    "LibLAS.unopenable_output"
   ],
   "note": "Proved for every storable header, old file content and list of points, new files and appending. Refuted: a file that cannot be opened for writing is undefined behaviour instead of a report."
  },
  {
   "property": "C57",
   "status": "partial",
   "theorems": [
    "LibLAS.handles",
    "LibLAS.constructor_leaks"
   ],
   "note": "Proved for every history; the number of streams open is that of the live handles plus the failed constructions, which refutes the last clause."
  },
  {
   "property": "C58",
   "status": "partial",
   "theorems": [
    "LibLAS.point_data_round_trip",
    "LibLAS.vlr_data_round_trip",
    "LibLAS.point_data_other_length",
    "LibLAS.vlr_data_needs_length"
   ],
   "note": "Proved when the point's record has its header's length and the variable record's length is set as well; refuted otherwise."
  },
  {
   "property": "C59",
   "status": "partial",
   "theorems": [
    "LibLAS.equal_is_identity",
    "LibLAS.copy_not_equal",
    "LibLAS.handle_is_readers"
   ],
   "note": "LASPoint_Equal decides identity of pointers; refuted: a copy is never equal, and a handle returned by a reader shows the next point after the next read."
  },
  {
   "property": "C60",
   "status": "partial",
   "theorems": [
    "LibLAS.by_return_round_trip_partial",
    "LibLAS.by_return_refused",
    "LibLAS.by_return_lost",
    "LibLAS.c_validity"
   ],
   "note": "Indexes 0 to 4 proved; 5 and 6 are accepted by the setter and not returned (refuted). Validity proved for every well-formed point."
  },
  {
   "property": "C61",
   "status": "partial",
   "theorems": [
    "LibLAS.Las2las.copy_partial",
    "LibLAS.Las2las.longer_output_ub"
   ],
   "note": "Proved for every file with ordinary scaling and no readable schema record and every storable output header with records no longer than the input's; a longer output record is undefined behaviour (shown). Not covered: --min-offset, compression, reprojection."
  },
  {
   "property": "C62",
   "status": "partial",
   "theorems": [
    "LibLAS.Las2las.copy_partial",
    "LibLAS.Las2las.bounds_exclude_point",
    "LibLAS.Las2las.returns_uncounted",
    "LibLAS.Las2las.empty_output_keeps_bounds",
    "LibLAS.Las2las.last_split_file_unrepaired"
   ],
   "note": "Same hypotheses as C61. Counts by return exact; bounds agree to 15 significant digits only, because they go through text (refuted: a bound can exclude the point it comes from). Refuted for outputs without points (stale bounds and counts), for the last file of a split run, and for points with return number 0, 6 or 7."
  },
  {
   "property": "C63",
   "status": "partial",
   "theorems": [
    "LibLAS.Las2las.split_points_partial",
    "LibLAS.Las2las.splitEvery_flatten",
    "LibLAS.Las2las.splitEvery_lengths",
    "LibLAS.Las2las.last_split_file_unrepaired",
    "LibLAS.Las2las.empty_split_file",
    "LibLAS.Las2las.split_name_relative",
    "LibLAS.Las2las.split_names_differ"
   ],
   "note": "Pieces proved for every k; refuted: the header of the last file is never repaired; when k divides the number of points there is an empty file; the file name is cut at the first dot of the path."
  },
  {
   "property": "C64",
   "status": "partial",
   "theorems": [
    "LibLAS.Las2las.split_bytes_partial",
    "LibLAS.Las2las.split_bytes_exceeds",
    "LibLAS.Las2las.split_bytes_single"
   ],
   "note": "The exact number of points per file for every 32-bit m. Refuted for every m from 1 to 2047: every file but the last is larger than m megabytes; from 2049 to 4095 every file has one point."
  },
  {
   "property": "C65",
   "status": "partial",
   "theorems": [
    "LibLAS.Kernel.filter_options_partial",
    "LibLAS.Kernel.filtered_copy_partial",
    "LibLAS.Kernel.drop_classes_drops_all",
    "LibLAS.Kernel.drop_returns_unusable",
    "LibLAS.Kernel.drop_minus_refused",
    "LibLAS.Kernel.x_limits_keep_nothing",
    "LibLAS.Kernel.yz_limits_keep_nothing",
    "LibLAS.Kernel.extent_miscounted",
    "LibLAS.Kernel.lower_limits_keep_origin",
    "LibLAS.Kernel.negative_angle_fails",
    "LibLAS.Kernel.flagged_point_dropped",
    "LibLAS.Kernel.drop_classes_run"
   ],
   "note": "Proved for every combination of the options the code handles as documented (a complete extent, classes given to --keep-classes on points without flags, numerals the platform reads as the number they stand for), lifted to whole runs. Refuted: --drop-classes drops every point, --drop-returns alone stops the program or is ignored, limits on fewer axes keep the wrong points, negative scan angles cannot be given, --keep-classes drops points with a flag set."
  },
  {
   "property": "C66",
   "status": "partial",
   "theorems": [
    "LibLAS.new_writer_exactly",
    "LibLAS.new_writer_offset",
    "LibLAS.copy_header_exactly",
    "LibLAS.read_header_writable",
    "LibLAS.read_records_kept",
    "LibLAS.Kernel.filler_case"
   ],
   "note": "Decided exactly, for every header with the invariants of the class and every file that opens without readable schema record: the constructor succeeds if at most two filler bytes are asked for and is undefined otherwise (the filler is copied from a two-byte literal), which refutes the property. Appending and compressed output are not part of it."
  },
  {
   "property": "C67",
   "status": "partial",
   "theorems": [
    "LibLAS.Kernel.edit_header",
    "LibLAS.Kernel.header_options_partial",
    "LibLAS.Kernel.header_options_kept_partial",
    "LibLAS.Kernel.filler_ub",
    "LibLAS.Kernel.delete_vlr_ub",
    "LibLAS.Kernel.delete_reference_ignored",
    "LibLAS.Kernel.add_reference_ignored",
    "LibLAS.Kernel.pad_header_ub",
    "LibLAS.Kernel.delete_vlr_case",
    "LibLAS.Kernel.scale_moves_points",
    "LibLAS.Kernel.format_garbles_colour"
   ],
   "note": "The header part is proved for every well-formed request; the run is decided exactly (success or undefined) for every ordinary file and formats no longer than the input's. Refuted: deleting a record is undefined (proved for every ordinary file), records of the spatial reference can be neither deleted nor added, --pad-header for more than two bytes is undefined, --scale and --offset move the points, a shorter format reinterprets bytes. Options on spatial references and colour need GDAL and are not modelled."
  },
  {
   "property": "C68",
   "status": "partial",
   "theorems": [
    "LibLAS.set_schema_taken",
    "LibLAS.set_schema_without_x",
    "LibLAS.set_schema_without_yz_ub"
   ],
   "note": "Proved for every reachable schema with the three coordinates (up to byte offsets, which are recomputed). Without X an exception is thrown after the header has changed; refuted: without Y or Z the call dereferences an empty optional."
  },
  {
   "property": "C69",
   "status": "partial",
   "theorems": [
    "LibLAS.Las2las.min_offset_partial",
    "LibLAS.Las2las.min_offset_points_partial",
    "LibLAS.Las2las.min_offset_bytes_partial",
    "LibLAS.Las2las.min_offset_empty",
    "LibLAS.Las2las.zero_record_lost",
    "LibLAS.Point.set_header_partial"
   ],
   "note": "Proved for whole runs on complete files, with and without splitting, for points whose coordinates span less than 2^31 units of the output's scale and output formats that do not change the format at the same record length. Refuted: a record of zero bytes is taken to the new offset; an input without points to write makes the program fail. Reprojection is not modelled."
  },
  {
   "property": "C70",
   "status": "partial",
   "theorems": [
    "LibLAS.Kernel.fix_angle",
    "LibLAS.Kernel.shift_all",
    "LibLAS.Kernel.changed_copy_partial",
    "LibLAS.Kernel.changed_run",
    "LibLAS.Kernel.large_angles_collapse"
   ],
   "note": "The angle is decided for all 256 values; shifts of any number of terms and whole runs are proved where signed overflow wraps, for complete input files, well-conditioned scales and shifts that are not refused. Reprojection and colours need GDAL and are not modelled."
  },
  {
   "property": "C71",
   "status": "partial",
   "theorems": [
    "LibLAS.Lasblock.tiles_partial",
    "LibLAS.Lasblock.tiles_run",
    "LibLAS.Lasblock.empty_input_undefined",
    "LibLAS.Lasblock.zero_capacity_undefined"
   ],
   "note": "Proved for whole runs on complete files with n points and capacity c with n(n/c+1) at most 2^48 (where the floating point partition table is exact). Refuted: an input without points and a capacity that is a multiple of 2^32 are undefined behaviour. --compressed and the text index are not modelled."
  },
  {
   "property": "C72",
   "status": "partial",
   "theorems": [
    "LibLAS.Sha1.sha1",
    "LibLAS.Sha1.sha1_history",
    "LibLAS.Sha1.sha1_long",
    "LibLAS.Sha1.second_digest_differs"
   ],
   "note": "Proved for every message of less than 2^32 bytes in any pieces and every history of calls, in a release build (with asserts an empty piece stops the program). From 2^32 bytes on the length field is the length modulo 2^32, and a second request hashes the padding of the first."
  },
  {
   "property": "C73",
   "status": "partial",
   "theorems": [
    "LibLAS.Las2txt.text_partial",
    "LibLAS.Las2txt.columns_partial",
    "LibLAS.Las2txt.complete_input",
    "LibLAS.Las2txt.text_run",
    "LibLAS.Las2txt.whole_scale_undefined",
    "LibLAS.Las2txt.empty_parse_undefined",
    "LibLAS.Las2txt.class_name_extra_column"
   ],
   "note": "Proved for whole runs with any filters, letters, delimiters and labels; default decimals for scales that are doubles nearest to negative powers of ten and a log10 exact there. Refuted: default decimals for a whole-number scale and an empty --parse are undefined behaviour, and class names contain the default delimiter. --header is not modelled."
  },
  {
   "property": "C74",
   "status": "partial",
   "theorems": [
    "LibLAS.Las2txt.lossless_partial",
    "LibLAS.Las2txt.lossless_x",
    "LibLAS.Las2txt.lossless_y",
    "LibLAS.Las2txt.lossless_z",
    "LibLAS.Las2txt.half_unit_offset_lossy"
   ],
   "note": "Proved for whole files when the last decimal is at most 4/5 of the scale, or is the scale and the offset is within 3/10 of a multiple of it. Refuted for offsets of half a unit, where two points print the same."
  },
  {
   "property": "C75",
   "status": "partial",
   "theorems": [
    "LibLAS.compressed_session",
    "LibLAS.compressed_all",
    "LibLAS.compressed_reset_seeks",
    "LibLAS.compressed_filtered_partial",
    "LibLAS.xorZip_decodes",
    "LibLAS.zipFile_opens",
    "LibLAS.compressed_filter_end_throws",
    "LibLAS.compressed_filter_loses_last",
    "LibLAS.compressed_at_filtered",
    "LibLAS.compressed_reset_spoils"
   ],
   "note": "The decompressor is a parameter with a contract (Spec.Decodes), shown to be met by a concrete codec. Proved for every session without filters, and for reading to the end under filters whose verdicts on the last three records are benign. Refuted: a rejected last record makes ReadNextPoint throw instead of reporting the end; an accepted last record after two rejected ones is lost; ReadPointAt under a filter delivers another record; Reset does not reset the decompressor."
  },
  {
   "property": "C76",
   "status": "partial",
   "theorems": [
    "LibLAS.compressed_round_trip",
    "LibLAS.compressed_round_trip_example",
    "LibLAS.xorZip_packs",
    "LibLAS.xorZip_described",
    "LibLAS.compressed_append_spoils",
    "LibLAS.compressed_foreign_description",
    "LibLAS.compressed_own_dimension_lost"
   ],
   "note": "Proved for new files, every header whose variable records do not ask for another packing, every number of points of the packed length, any reading session; LASzip is a parameter with a contract (Spec.Packs), met by a concrete codec. Refuted: appending to a compressed file, a header that carries LASzip's description of another packing, and dimensions beyond the point format (their bytes are lost)."
  },
  {
   "property": "C77",
   "status": "partial",
   "theorems": [
    "LibLAS.Txt2las.text_to_points",
    "LibLAS.Txt2las.bounds_exact",
    "LibLAS.Txt2las.bounds_wrong",
    "LibLAS.Txt2las.negative_bound_lost",
    "LibLAS.Txt2las.only_comments",
    "LibLAS.Txt2las.no_coordinates",
    "LibLAS.Txt2las.long_identifier",
    "LibLAS.Txt2las.unknown_letter_shifts",
    "LibLAS.Txt2las.short_line_counted",
    "LibLAS.Txt2las.plainScan_scans"
   ],
   "note": "Proved for every text of rows and comments: points, attributes and header read back from the file (sscanf is a parameter with a contract, met by a concrete scanner). The bounds in the header are characterised exactly: right for coordinates stored as non-negative integers, one unit too high for negative ones (refuted there). Further refutations: letters without x, y, z, r and long identifiers are undefined behaviour, unknown letters shift columns, lines too short for the second pass count in bounds and returns. Command line not modelled."
  },
  {
   "property": "C78",
   "status": "partial",
   "theorems": [
    "LibLAS.TextRoundTrip.round_trip_partial"
   ],
   "note": "Proved for whole runs of both programs on every file. Missing: scales for which the decimals are not fine enough (refuted in C74), negative or non-finite times, lines longer than the 510 characters txt2las reads at a time; assumes the log10 and sscanf contracts of C73 and C77."
  },
  {
   "property": "C79",
   "status": "partial",
   "theorems": [
    "LibLAS.Ts2las.scan_to_points",
    "LibLAS.Ts2las.unknown_refused",
    "LibLAS.Ts2las.missing_shots",
    "LibLAS.Ts2las.last_shot_twice"
   ],
   "note": "Proved for every complete file of either layout: points, attributes and header read back. Bounds and counts by return in the new header are proved to stay zero, and the flight line is lost. Files that end too early: the program dies with an uncaught exception, or, one plain shot short, silently repeats the last shot (refuting the count claim there). Negative counts in the header, units of zero (no placement claimed), the command line and filters (which the writer never looks at) are not covered."
  },
  {
   "property": "C80",
   "status": "partial",
   "theorems": [
    "LibLAS.Las2col.las2col_no_ub",
    "LibLAS.Las2col.las2col_columns",
    "LibLAS.Las2col.las2col_in_order",
    "LibLAS.Las2col.las2col_always",
    "LibLAS.Las2col.las2col_stuck",
    "LibLAS.Las2col.las2col_ends",
    "LibLAS.Las2col.las2col_can_finish",
    "LibLAS.Las2col.las2col_may_hang",
    "LibLAS.Las2col.las2col_overtaken"
   ],
   "note": "Proved for every schedule: no misuse of pointers, whole columns in one order common to all column files, the order of the command line with one reading thread, every schedule without spurious wake-ups is bounded, and the only way to stop short of the end is main sleeping through the writers' broadcast. Refuted: that it always returns (lost wake-up), and the order of the files with several reading threads. The content of a column is a parameter here (C83)."
  },
  {
   "property": "C81",
   "status": "partial",
   "theorems": [
    "LibLAS.Morton.encode_interleaves",
    "LibLAS.Morton.interleaves_injective",
    "LibLAS.Morton.interleaves_unique",
    "LibLAS.Morton.interleaves_mono",
    "LibLAS.Morton.code_on_grid",
    "LibLAS.Morton.same_place_other_code",
    "LibLAS.Morton.check_below",
    "LibLAS.Morton.check_above"
   ],
   "note": "Proved for all raw coordinates and all files whose offset is exactly a multiple of the scale (as doubles), places within 2^31. Refuted otherwise: with offset 0.29 and scale 0.01 (a multiple in decimals only) the same place gets another code than in a file without offset; --check lets places one below 0 and the place 2^31 pass, which share codes with others."
  },
  {
   "property": "C82",
   "status": "partial",
   "theorems": [
    "LibLAS.Las2pg.dump_partial",
    "LibLAS.Las2pg.check_refuses",
    "LibLAS.Las2pg.input_five",
    "LibLAS.Las2pg.dump_run",
    "LibLAS.Las2pg.number_after_skip",
    "LibLAS.Las2pg.unknown_letter",
    "LibLAS.Las2pg.empty_parse",
    "LibLAS.Las2pg.zero_scale",
    "LibLAS.Las2pg.truncated_file"
   ],
   "note": "Proved for whole runs: the output is decoded by an independent decoder of PostgreSQL's format. The number of the tuple only if no point is skipped. Refuted: numbers after skipped points, unknown letters (unreadable dump), empty --parse and a zero scale (undefined behaviour), truncated files (no error, invented tuple). Little-endian hosts."
  },
  {
   "property": "C83",
   "status": "partial",
   "theorems": [
    "LibLAS.Las2col.column_partial",
    "LibLAS.Las2col.column_complete",
    "LibLAS.Las2col.column_unique",
    "LibLAS.Las2col.program_columns",
    "LibLAS.Las2col.exact_quotient",
    "LibLAS.Las2col.column_run",
    "LibLAS.Las2col.skip_overwrites",
    "LibLAS.Las2col.skip_first",
    "LibLAS.Las2col.unknown_letter",
    "LibLAS.Las2col.too_few_or_many",
    "LibLAS.Las2col.truncated_file",
    "LibLAS.Las2col.decimal_short"
   ],
   "note": "Proved for whole files and, with C80, for the whole program under every schedule, when no point is skipped and no --check is given. X, Y and Z are proved to be the truncated quotient; that this is the decimal coordinate is refuted (scale 0.01, raw 29 becomes 28). Refuted: --skip_invalid overwrites elements or writes outside the arrays; unknown letters, none or more than 21 are undefined behaviour; truncated files fill up with memory contents."
  },
  {
   "property": "C84",
   "status": "partial",
   "theorems": [
    "LibLAS.Index.index_grid",
    "LibLAS.Index.index_grid_empty",
    "LibLAS.Index.index_grid_height_undefined",
    "LibLAS.Index.unset_bounds_refused"
   ],
   "note": "Proved for all finite bounds and all heights that give at most 2^31 layers. Refuted: a cell height that gives 2^33 or more layers is undefined behaviour (the quotient is converted to 32 bits without a check)."
  },
  {
   "property": "C85",
   "status": "partial",
   "theorems": [
    "LibLAS.Index.index_made_partial",
    "LibLAS.Index.index_made_small",
    "LibLAS.Index.area_made"
   ],
   "note": "Proved end to end: opening, making, saving in the file or a file of its own, opening again, accepting, answering windows, for every file whose cells fit one record each (always the case up to 5000 points). Missing: cells that need more than one record (refuted, C44), points outside the bounds (refuted, C41), files that carry an index already (C86)."
  },
  {
   "property": "C86",
   "status": "partial",
   "theorems": [
    "LibLAS.Index.prep_current",
    "LibLAS.Index.prep_outdated_read_only",
    "LibLAS.Index.prep_read_only",
    "LibLAS.Index.stale_stays",
    "LibLAS.Index.grown_stays",
    "LibLAS.Index.grown_old_names",
    "LibLAS.Index.renewed_twice",
    "LibLAS.Index.force_new_undefined"
   ],
   "note": "Proved: an index with the number of points and the bounds of the file (up to 2^-52) is used and nothing written; one that differs is not used; without permission nothing is ever written. Refuted for every indexable file: an out-of-date index is not replaced, the new one is put behind it, so that the next session finds the old one and has no index (stale_stays); the new one also says the author, comment and date of the old one and not those the caller gave (grown_old_names); and in the same session answers have points twice (renewed_twice); forcing a new index is undefined behaviour for every file whose index header is not the very last record (force_new_undefined)."
  },
  {
   "property": "C87",
   "status": "proved",
   "theorems": [
    "LibLAS.Xml.xml_round_trip",
    "LibLAS.Xml.zero_byte_lost"
   ],
   "note": "All trees with usable element names and texts without zero bytes (a text with a zero byte is lost: the parser works on C strings). The depth of the C++ stack is not modelled."
  },
  {
   "property": "C88",
   "status": "partial",
   "theorems": [
    "LibLAS.Xml.schema_bytes_safe",
    "LibLAS.Xml.xml_bytes_safe",
    "LibLAS.Xml.adopt_exactly",
    "LibLAS.Xml.setSchema_exactly",
    "LibLAS.Xml.half_schema_crashes"
   ],
   "note": "Proved: the parser and LoadDimensions end with a schema or a runtime_error for all bytes; adopting the schema is proved to succeed exactly unless the record lists X but not both Y and Z. Refuted in that case: an empty optional is dereferenced (half_schema_crashes). Not modelled: the depth of the C++ stack (deeply nested elements)."
  },
  {
   "property": "C89",
   "status": "partial",
   "theorems": [
    "LibLAS.Xml.own_schema_refused",
    "LibLAS.Xml.new_file_noSchema",
    "LibLAS.Xml.custom_schema_lost"
   ],
   "note": "Refuted for every schema: the version is written as 1.0 and read as a 16-bit integer, so every record the library writes is refused (own_schema_refused). Proved: the points of such a file come back unchanged and in order, and the only dimension beyond the standard ones is \"extra\" (custom_schema_lost)."
  },
  {
   "property": "C90",
   "status": "partial",
   "theorems": [
    "LibLAS.Xml.foreign_schema_loads",
    "LibLAS.Xml.whole_schema_read",
    "LibLAS.Xml.record_length_lost"
   ],
   "note": "Proved for every list of dimensions. Refuted: the next free position after loading is that after the standard dimensions, so the filler dimension can be refused silently; then the reader takes records of another length than the header says (record_length_lost). Minimum, maximum, scale and offset of dimensions are not modelled beyond whether their text can be read."
  },
  {
   "property": "C91",
   "status": "partial",
   "theorems": [
    "LibLAS.FullDisk.enough_room",
    "LibLAS.FullDisk.full_disk",
    "LibLAS.FullDisk.full_disk_append",
    "LibLAS.FullDisk.loss_not_reported"
   ],
   "note": "Proved exactly: which points are in the file, the count it shows, and that the program is told if and only if another point follows the one that did not fit. Refuted for every non-empty list of points: there is a disk size for which nothing is reported and the file shows no points (loss_not_reported). The header is taken as written already; the stream as unbuffered (std::ofstream reports later still)."
  },
  {
   "property": "C92",
   "status": "partial",
   "theorems": [
    "LibLAS.MapAlloc.regions_apart",
    "LibLAS.MapAlloc.first_mapped",
    "LibLAS.MapAlloc.runs_exactly",
    "LibLAS.MapAlloc.never_again",
    "LibLAS.MapAlloc.second_run_wipes",
    "LibLAS.MapAlloc.one_failure_for_good",
    "LibLAS.MapAlloc.memory_kept",
    "LibLAS.MapAlloc.given_back"
   ],
   "note": "Proved for every history of a process: live regions are disjoint and in the file; the first chipper of a process gets its memory; and exactly which chippers do (runs_exactly). Refuted: after a mapped chipper no other chipper gets memory in this process, even after everything was given back (never_again); an attempt with the same file clears or removes the memory of the live chipper before it fails (second_run_wipes); a file that cannot be mapped at first rules out maps for good. The heap is taken as unlimited, mapping inside the file as successful."
  },
  {
   "property": "C93",
   "status": "partial",
   "theorems": [
    "LibLAS.reference_records_kept",
    "LibLAS.wkt_stored",
    "LibLAS.wkt_not_read",
    "LibLAS.proj4_discards",
    "LibLAS.others_refused",
    "LibLAS.cleared"
   ],
   "note": "Proved: the records of every reference object come back as the reference of the file. Refuted: the text of the reference read from a file is empty for every text that was set (wkt_not_read), although its record is there; SetProj4 without GDAL and libgeotiff reports success, sets nothing and discards the records (proj4_discards); SetVerticalCS reports success and does nothing. Builds with GDAL or libgeotiff are not modelled."
  },
  {
   "property": "C94",
   "status": "partial",
   "theorems": [
    "LibLAS.Xml.summary_xml_partial",
    "LibLAS.Xml.summary_xml_empty",
    "LibLAS.Xml.summary_xml_null",
    "LibLAS.Xml.zero_returns_called_first"
   ],
   "note": "Proved for every file of whole records (format length at least), every history without filters, through the XML text and its parser. Refuted: points with return number 0 are in no list of returns, and when all have it the summary says they are first returns (zero_returns_called_first). Missing: filters, undefined times; the text of a double is a parameter."
  },
  {
   "property": "C95",
   "status": "proved",
   "theorems": [
    "LibLAS.Xml.xml_documents_read",
    "LibLAS.Xml.documents_told_apart",
    "LibLAS.Xml.closing_names_ignored",
    "LibLAS.Xml.ill_formed_accepted",
    "LibLAS.Xml.comment_spoils_schema"
   ],
   "note": "C95: readXml (write d) = ok (says d) for every well-formed document d of Spec/XmlDoc. Refuted for ill-formed documents: closing names are never compared (closing_names_ignored, ill_formed_accepted). comment_spoils_schema: a comment inside <dimensions> makes the schema text refused."
  },
  {
   "property": "C96",
   "status": "partial",
   "theorems": [
    "LibLAS.SummaryLife.summary_reports",
    "LibLAS.SummaryLife.closed_reader_undefined",
    "LibLAS.SummaryLife.copy_reports_same",
    "LibLAS.SummaryLife.copy_needs_original",
    "LibLAS.SummaryLife.copy_follows_original",
    "LibLAS.SummaryLife.copy_not_independent",
    "LibLAS.SummaryLife.fresh_summary_unusable",
    "LibLAS.SummaryLife.summarize_reader_reports",
    "LibLAS.SummaryLife.lasinfo_reads_destroyed",
    "LibLAS.SummaryLife.late_header_spoils"
   ],
   "note": "Proved for every history: unmoved summaries and fresh copies report correctly, SummarizeReader does. Refuted: copies depend on their original (copy_needs_original, copy_follows_original, copy_not_independent); lasinfo with checking reads a destroyed header for every file (lasinfo_reads_destroyed). Not modelled: CoordinateSummary objects, giving a header whose data format differs from that of the points."
  },
  {
   "property": "C97",
   "status": "partial",
   "theorems": [
    "LibLAS.header_rewritten",
    "LibLAS.set_header_alone",
    "LibLAS.set_header_late",
    "LibLAS.writer_filters_ignored",
    "LibLAS.header_count_believed",
    "LibLAS.own_header_rewritten",
    "LibLAS.set_header_early"
   ],
   "note": "Proved: any number of rounds of rewriting with a right count, on files without padding and without a readable schema record; unwritten headers of the same record length have no effect. Refuted: filters and transforms of a writer are never applied (writer_filters_ignored, every session); the count of the header written again is believed (header_count_believed, exactly which points are left; own_header_rewritten: all earlier points lost); a header of another record length before the first point (set_header_early)."
  },
  {
   "property": "C98",
   "status": "partial",
   "theorems": [
    "LibLAS.given_header_points",
    "LibLAS.given_header_later",
    "LibLAS.reset_undoes_header",
    "LibLAS.given_count_sequential",
    "LibLAS.given_count_random",
    "LibLAS.header_change_undefined",
    "LibLAS.header_then_reset_undefined",
    "LibLAS.shorter_header_undefined",
    "LibLAS.longer_header_misreads"
   ],
   "note": "Proved for files whose points are all there and without a readable schema record: headers for the same place of the points change nothing in the records read, after any history; a reset undoes them; the count of the header matters for access by number only. Refuted: a second header or a reset after a header and a point is undefined (exactly when, for every history: header_change_undefined); shorter records make the next read undefined; longer ones misplace access by number (longer_header_misreads)."
  },
  {
   "property": "C99",
   "status": "partial",
   "theorems": [
    "LibLAS.Moving.header_transforms",
    "LibLAS.Moving.header_transforms_at",
    "LibLAS.Moving.transforms_in_order",
    "LibLAS.Moving.header_transforms_undefined",
    "LibLAS.Moving.unannounced_header",
    "LibLAS.Moving.rejected_point_fails",
    "LibLAS.Moving.clipped_test_undefined"
   ],
   "note": "Proved for files whose points are all there and without a readable schema record, for every transform function whose results can be given the file's header again (Returns) and that says it changes headers (Announced). Refuted without these: header_transforms_undefined, unannounced_header; with filters a failing transform fails on a rejected point (rejected_point_fails). clipped_test_undefined: the overflow test of ReprojectionTransform, for all 32-bit coordinates. GDAL itself (the projection, the raster) is not modelled; access by number may only come last in a sequence."
  }
 ]
}