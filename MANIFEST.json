{
 "claims": [
  {
   "property": "C01",
   "status": "proved",
   "theorems": [
    "NT.C01_flat_file"
   ],
   "note": "full refinement to a flat file for every history and every short-read schedule; hypotheses: runs inside the image, stored runs not at LCN 0 and no zero delta (see C11)"
  },
  {
   "property": "C02",
   "status": "proved",
   "theorems": [
    "NT.C02_flat_file",
    "NT.C02_position"
   ],
   "note": "full refinement to an in-memory file, all histories"
  },
  {
   "property": "C03",
   "status": "proved",
   "theorems": [
    "NT.C03_flat_file"
   ],
   "note": "For values whose connected attributes each have at least one data run and lie in records that the MFT stores in one extent each; the list may be resident or non-resident."
  },
  {
   "property": "C04",
   "status": "proved",
   "theorems": [
    "NT.C04_resident",
    "NT.C04_data_run",
    "NT.C04_non_resident",
    "NT.C04_non_resident_succeeds"
   ],
   "note": "resident values, seek_contiguous, and non-resident values in any state"
  },
  {
   "property": "C05",
   "status": "proved",
   "theorems": [
    "NT.C05_list",
    "NT.C05_list_failed",
    "NT.C05_non_resident",
    "NT.C05_non_resident_failed",
    "NT.C05_resident"
   ],
   "note": "resident, non-resident and attribute-list values, every device behaviour incl. failures"
  },
  {
   "property": "C06",
   "status": "proved",
   "theorems": [
    "NT.C06_list",
    "NT.C06_resident",
    "NT.C06_non_resident",
    "NT.C06_terminates"
   ],
   "note": "read_exact on resident, non-resident and attribute-list values after any history; terminates for every device behaviour"
  },
  {
   "property": "C07",
   "status": "partial",
   "theorems": [
    "NT.C07_before_first_byte_partial",
    "NT.C07_negation",
    "NT.C07_interrupted_partial",
    "NT.C07_contiguous_partial"
   ],
   "note": "Violated: an Interrupted after partial progress shifts the data (C07_negation). C07_interrupted_partial: exact law of read_exact over any failing device: it passes over the bytes the interrupted attempts had delivered and then delivers contiguous bytes. C07_contiguous_partial: on success the buffer holds the bytes that end at the new position; they are the right ones iff the position moved by the size of the buffer."
  },
  {
   "property": "C08",
   "status": "proved",
   "theorems": [
    "NT.C08_roundtrip",
    "NT.C08_only_encodings"
   ],
   "note": "both directions: every encoding decodes to its extents, and only encodings are accepted"
  },
  {
   "property": "C09",
   "status": "proved",
   "theorems": [
    "NT.C09_exact",
    "NT.C09_exact_at_end",
    "NT.C09_no_panic",
    "NT.C09_progress",
    "NT.C09_ended_stays_ended",
    "NT.C09_few_runs",
    "NT.C09_terminates"
   ],
   "note": "exact result of every decode step for every byte string, no panic, progress, termination bound"
  },
  {
   "property": "C10",
   "status": "partial",
   "theorems": [
    "NT.C10_same_error_partial",
    "NT.C10_negation",
    "NT.C10_still_an_error",
    "NT.C10_reachable",
    "NT.C10_too_big_partial"
   ],
   "note": "Violated for LcnTooBig (C10_negation). C10_too_big_partial: the exact errors of all later calls (the LCN grows by the same step until InvalidVcn, which repeats). Every other error repeats."
  },
  {
   "property": "C11",
   "status": "partial",
   "theorems": [
    "NT.C11_negation",
    "NT.C11_flat_file_partial",
    "NT.C11_nothing_moves"
   ],
   "note": "Violated (C11_negation): stored runs at LCN 0 and runs with zero delta read as sparse. C11_flat_file_partial is the exact law of the code: the value behaves as the flat file in which exactly these runs are replaced by zeros; C11_nothing_moves: no other byte changes."
  },
  {
   "property": "C12",
   "status": "proved",
   "theorems": [
    "NT.C12_roundtrip"
   ],
   "note": "round trip for every record size and update sequence number"
  },
  {
   "property": "C13",
   "status": "proved",
   "theorems": [
    "NT.C13_ok_means_all_match",
    "NT.C13_first_mismatch_reported",
    "NT.C13_torn_write"
   ],
   "note": "success implies all sectors match, first mismatch reported, any torn write detected"
  },
  {
   "property": "C14",
   "status": "partial",
   "theorems": [
    "NT.C14_panic_iff",
    "NT.C14_no_panic_partial",
    "NT.C14_negation"
   ],
   "note": "exact panic characterisation; negation for records of 64 KiB and more, absence of panics below"
  },
  {
   "property": "C15",
   "status": "proved",
   "theorems": [
    "NT.C15_accept_iff",
    "NT.C15_no_panic",
    "NT.C15_refuse_iff"
   ],
   "note": "iff for the accepted boot sectors and for the error of each refused one (C15_refuse_iff), plus absence of panics for every device behaviour"
  },
  {
   "property": "C16",
   "status": "proved",
   "theorems": [
    "NT.C16_geometry"
   ],
   "note": "all device behaviours"
  },
  {
   "property": "C17",
   "status": "partial",
   "theorems": [
    "NT.C17_rejected",
    "NT.C17_record_partial",
    "NT.C17_sound",
    "NT.C17_negation"
   ],
   "note": "Exact result of Ntfs::file over any run layout (Ntfs.file_eq); equals the n-th record of the MFT stream when the record lies in one extent. Violated when it straddles two extents (C17_negation)."
  },
  {
   "property": "C18",
   "status": "proved",
   "theorems": [
    "NT.C18_tiles",
    "NT.C18_disjoint",
    "NT.C18_opened",
    "NT.C18_wellformed"
   ],
   "note": "every record, any number of calls"
  },
  {
   "property": "C19",
   "status": "partial",
   "theorems": [
    "NT.C19_used_part_partial",
    "NT.C19_negation"
   ],
   "note": "Violated by the code (C19_negation); holds when the attribute chain ends in the used part."
  },
  {
   "property": "C20",
   "status": "proved",
   "theorems": [
    "NT.C20_name",
    "NT.C20_name_string",
    "NT.C20_resident_value",
    "NT.C20_resident_value_exact"
   ],
   "note": "names and resident values, with all error cases"
  },
  {
   "property": "C21",
   "status": "partial",
   "theorems": [
    "NT.C21_value_length",
    "NT.C21_no_panic_partial",
    "NT.C21_negation"
   ],
   "note": "Violated by the code (C21_negation); exact panic condition of value_length, and no panic when the extra header lies in the record."
  },
  {
   "property": "C22",
   "status": "proved",
   "theorems": [
    "NT.C22_first_match",
    "NT.C22_not_found_iff",
    "NT.C22_no_panic"
   ],
   "note": "find_resident_attribute: success and AttributeNotFound characterised by iff"
  },
  {
   "property": "C23",
   "status": "proved",
   "theorems": [
    "NT.C23_no_list",
    "NT.C23_with_list",
    "NT.C23_groups_exist",
    "NT.C23_split_value"
   ],
   "note": "Records without a list: exact for all records. Records with one list attribute: all lists of well-formed entries with known types, any mixture of resident, non-resident and unreadable targets; the value of a shown group is the stitched value (C23_split_value, with C03)."
  },
  {
   "property": "C24",
   "status": "proved",
   "theorems": [
    "NT.C24_resident",
    "NT.C24_non_resident",
    "NT.C24_arbitrary_resident",
    "NT.C24_progress",
    "NT.C24_few_entries",
    "NT.C24_no_panic_resident",
    "NT.C24_no_panic_non_resident"
   ],
   "note": "Well-formed lists of any length, resident and non-resident, decode to their entries; on arbitrary bytes the exact step (resident), progress by at least 26 bytes, a bound on the number of entries and absence of panics (non-resident: under the run bound of C49)."
  },
  {
   "property": "C25",
   "status": "proved",
   "theorems": [
    "NT.C25_inorder",
    "NT.C25_contents"
   ],
   "note": "Every stored tree of any shape: calls of next show the entries in order, each once, then the end for good; contents of shown entries are those encoded."
  },
  {
   "property": "C26",
   "status": "proved",
   "theorems": [
    "NT.C26_find",
    "NT.C26_find_unique",
    "NT.C26_not_first"
   ],
   "note": "find on every stored sorted tree: an Equal entry if there is one (the only one if unique), None otherwise. C26_not_first: with several Equal entries not always the first is returned."
  },
  {
   "property": "C27",
   "status": "partial",
   "theorems": [
    "NT.C27_entries_acyclic_sane",
    "NT.C27_find_acyclic_sane",
    "NT.C27_entries_acyclic_partial",
    "NT.C27_find_acyclic_partial",
    "NT.C27_only_cycles_sane",
    "NT.C27_only_cycles",
    "NT.C27_tree_acyclic",
    "NT.C27_entries_end_partial",
    "NT.C27_find_ends_partial",
    "NT.C27_cyclic_entries",
    "NT.C27_cyclic_find",
    "NT.C27_negation"
   ],
   "note": "Violated: C27_negation gives a concrete image on which next and find never end, C27_cyclic_* generalise it to every index that leads into a cycle. Partial: on every index of every image in which no record is below itself both end, with one bound for the rounds of all calls and the number of entries (C27_entries_acyclic_partial, C27_find_acyclic_partial, C27_only_cycles); stored trees are acyclic (C27_tree_acyclic) and end within entries + nodes rounds."
  },
  {
   "property": "C28",
   "status": "proved",
   "theorems": [
    "NT.C28_iterate",
    "NT.C28_entry",
    "NT.C28_last_entry",
    "NT.C28_inside",
    "NT.C28_record_has_subnodes",
    "NT.C28_record_entries",
    "NT.C28_root_entries"
   ],
   "note": "exact sequence of entries for all encoded nodes, accessors, and containment for arbitrary bytes"
  },
  {
   "property": "C29",
   "status": "partial",
   "theorems": [
    "NT.C29_root",
    "NT.C29_root_entries_partial",
    "NT.C29_root_negation",
    "NT.C29_record_partial",
    "NT.C29_record_accessors_partial",
    "NT.C29_node_step_partial",
    "NT.C29_entry_partial",
    "NT.C29_traversal_partial",
    "NT.C29_find_partial",
    "NT.C29_subnodes_partial",
    "NT.C29_node_negation",
    "NT.C29_record_negation"
   ],
   "note": "exact panic conditions of every step for arbitrary bytes, and no panic of traversal and lookup otherwise; violations proved as negations"
  },
  {
   "property": "C30",
   "status": "proved",
   "theorems": [
    "NT.C30_returns_record",
    "NT.C30_mismatch",
    "NT.C30_bad_offsets",
    "NT.C30_only_that_record"
   ],
   "note": "record_from_vcn returns the stored record; mismatching VCN, overflowing, negative, out-of-bounds and truncated offsets give their errors; whatever is returned is the fixed-up record at vcn*cluster_size."
  },
  {
   "property": "C31",
   "status": "proved",
   "theorems": [
    "NT.C31_lexicographic",
    "NT.C31_total",
    "NT.C31_refl",
    "NT.C31_swap",
    "NT.C31_trans",
    "NT.C31_panics_without_table"
   ],
   "note": "For every table of 65536 entries and all names: the comparison is the lexicographic order of the upcased code units, a total preorder whose equality is equality of the upcased names; without a table it panics."
  },
  {
   "property": "C32",
   "status": "proved",
   "theorems": [
    "NT.C32_read",
    "NT.C32_accepted_iff",
    "NT.C32_lookup",
    "NT.C32_no_data"
   ],
   "note": "The table is accepted iff the nominal size of the first unnamed $DATA of record 10 is 131072 (and the bytes are there); lookups then give the stored LE16. Devices that fail are outside this theorem."
  },
  {
   "property": "C33",
   "status": "proved",
   "theorems": [
    "NT.C33_find",
    "NT.C33_find_unique",
    "NT.C33_case_blind"
   ],
   "note": "both directions of the lookup on every sorted stored directory, unique names, and case-blindness for every index"
  },
  {
   "property": "C34",
   "status": "partial",
   "theorems": [
    "NT.C34_roundtrip",
    "NT.C34_accept_partial",
    "NT.C34_reject",
    "NT.C34_precision",
    "NT.C34_monotone",
    "NT.C34_negation"
   ],
   "note": "round trip, precision, monotonicity proved; acceptance is exact but accepts up to 99 ns before 1601 (C34_negation)"
  },
  {
   "property": "C35",
   "status": "partial",
   "theorems": [
    "NT.C35_agree_partial",
    "NT.C35_negation_before_1970",
    "NT.C35_negation_far_future"
   ],
   "note": "agreement from 1970 to the end of the 64-bit range; violated before 1970 and in the far future (negations proved)"
  },
  {
   "property": "C36",
   "status": "proved",
   "theorems": [
    "NT.C36_split",
    "NT.C36_injective",
    "NT.C36_roundtrip"
   ],
   "note": ""
  },
  {
   "property": "C37",
   "status": "proved",
   "theorems": [
    "NT.C37_lcn_add",
    "NT.C37_lcn_position",
    "NT.C37_vcn_offset",
    "NT.C37_position_add"
   ],
   "note": ""
  },
  {
   "property": "C38",
   "status": "proved",
   "theorems": [
    "NT.C38_index_root",
    "NT.C38_index_root_attribute",
    "NT.C38_index_root_nonresident",
    "NT.C38_other_type",
    "NT.C38_standard_information",
    "NT.C38_file_name",
    "NT.C38_volume_information",
    "NT.C38_volume_name",
    "NT.C38_object_id",
    "NT.C38_resident",
    "NT.C38_resident_ok_iff",
    "NT.C38_never_panics",
    "NT.C38_namespace",
    "NT.C38_flags"
   ],
   "note": "every value byte string: exact result or error for all six values, at attribute level for resident, non-resident and listed values"
  },
  {
   "property": "C39",
   "status": "proved",
   "theorems": [
    "NT.C39_fresh_seek",
    "NT.C39_seek_after_history",
    "NT.C39_address_holds_byte",
    "NT.C39_boundary_negation",
    "NT.C39_split"
   ],
   "note": "After any history of reads and seeks a seek leaves data_position at the device address of the byte at the new stream position; the same for values split over an attribute list (C39_split); boundary deviation after a plain read proved as C39_boundary_negation."
  },
  {
   "property": "C40",
   "status": "partial",
   "theorems": [
    "NT.C40_deviation_partial",
    "NT.C40_negation"
   ],
   "note": "Violated by the code (C40_negation); exact deviation proved."
  },
  {
   "property": "C41",
   "status": "proved",
   "theorems": [
    "NT.C41_interleaving"
   ],
   "note": "any number of values, any interleaving, any short-read schedule"
  },
  {
   "property": "C42",
   "status": "partial",
   "theorems": [
    "NT.C42_device_failures_partial",
    "NT.C42_negation"
   ],
   "note": "violated for malformed later runs (C42_negation); device failures never corrupt later operations"
  },
  {
   "property": "C43",
   "status": "partial",
   "theorems": [
    "NT.C43_negation",
    "NT.C43_passed_over_partial",
    "NT.C43_read_after_seek",
    "NT.C43_intact_partial"
   ],
   "note": "Violated (C43_negation): a read over a missing part reports no error and delivers wrong bytes. C43_passed_over_partial: for runs anywhere inside or outside the device, every history behaves like a file whose missing bytes are passed over without moving the position (exact law). C43_intact_partial: every history whose reads cover no missing byte behaves as on the complete volume."
  },
  {
   "property": "C44",
   "status": "partial",
   "theorems": [
    "NT.C44_new",
    "NT.C44_whole_sectors",
    "NT.C44_positions_partial",
    "NT.C44_drift",
    "NT.C44_read_after_seek_partial",
    "NT.C44_room",
    "NT.C44_seek",
    "NT.C44_consecutive_negation",
    "NT.C44_end_negation",
    "NT.C44_failed_negation"
   ],
   "note": "violated: consecutive reads drift by one sector each (exact law C44_drift), the last sector cannot be read (C44_end_negation), positions after a failed read (C44_failed_negation); sizes for all inner readers, positions for readers without failures, contents after a seek proved"
  },
  {
   "property": "C45",
   "status": "partial",
   "theorems": [
    "NT.C45_length_partial",
    "NT.C45_groups_partial",
    "NT.C45_canonical_iff_partial",
    "NT.C45_injective",
    "NT.C45_negation"
   ],
   "note": "Violated as stated: leading zeros come out as blanks (C45_negation). Proved: length, the exact form of every group, when the form is canonical, and that it determines the GUID."
  },
  {
   "property": "C46",
   "status": "proved",
   "theorems": [
    "NT.C46_data",
    "NT.C46_find_attribute",
    "NT.C46_panics_without_table",
    "NT.C46_hidden_stream"
   ],
   "note": "For every flattened attribute sequence (with or without an attribute list): first match, None iff none, error iff an earlier attribute cannot be loaded or parsed; also find_attribute. C46_hidden_stream shows a stream that the flattened iteration hides (C50)."
  },
  {
   "property": "C47",
   "status": "proved",
   "theorems": [
    "NT.C47_name"
   ],
   "note": "For every flattened attribute sequence whose $FILE_NAME attributes are resident with the value inside (the format requires residency): first match, None iff none, error iff an earlier attribute cannot be loaded or decoded."
  },
  {
   "property": "C48",
   "status": "proved",
   "theorems": [
    "NT.C48_not_a_directory",
    "NT.C48_directory_index",
    "NT.C48_open",
    "NT.C48_list",
    "NT.C48_find"
   ],
   "note": "exact outcome for every flattened attribute sequence, and listing/lookup of a stored directory end to end"
  },
  {
   "property": "C49",
   "status": "partial",
   "theorems": [
    "NT.C49_no_panic_partial",
    "NT.C49_negation"
   ],
   "note": "violated for runs ending above 2^64 (C49_negation); proved otherwise"
  },
  {
   "property": "C50",
   "status": "partial",
   "theorems": [
    "NT.C50_negation",
    "NT.C50_apart_partial"
   ],
   "note": "Violated (C50_negation): streams of different records with coinciding instance numbers are merged. C50_apart_partial: if instance numbers tell names apart, every entry of another record gets an item and entries that differ in type or name get different items."
  },
  {
   "property": "C51",
   "status": "partial",
   "theorems": [
    "NT.C51_own_runs_only_partial",
    "NT.C51_negation"
   ],
   "note": "Violated by the code: negation proved with a concrete image; C51_own_runs_only_partial says what the value of a base-record attribute is."
  },
  {
   "property": "C52",
   "status": "proved",
   "theorems": [
    "NT.C52_all_records",
    "NT.C52_bad_record"
   ],
   "note": "C52_all_records: intact streams; C52_bad_record: first record without signature or cut off."
  },
  {
   "property": "C53",
   "status": "proved",
   "theorems": [
    "NT.C53_copy",
    "NT.C53_copy_all",
    "NT.C53_short_negation"
   ],
   "note": "The copy loop over every kind of value; C53_short_negation records that `get` announces the data size although fewer bytes are written when the runs are short."
  },
  {
   "property": "C54",
   "status": "proved",
   "theorems": [
    "NT.C54_volume",
    "NT.C54_attributes",
    "NT.C54_values",
    "NT.C54_index",
    "NT.C54_read",
    "NT.C54_seek",
    "NT.C54_success",
    "NT.C54_get",
    "NT.C54_dir",
    "NT.C54_shell",
    "NT.C54_interrupted_negation"
   ],
   "note": "All device-using functions of the model, also `get` and `dir` of the shell, are compared with their run on the healed device. Interrupted is excluded (C54_interrupted_negation, C07)."
  },
  {
   "property": "C55",
   "status": "proved",
   "theorems": [
    "NT.C55_structured_iff",
    "NT.C55_info",
    "NT.C55_volume_info",
    "NT.C55_volume_name"
   ],
   "note": "Exact conditions for success, for None and the values of all fields used."
  },
  {
   "property": "C56",
   "status": "proved",
   "theorems": [
    "NT.C56_best"
   ],
   "note": "For every sequence of attributes as in C23/C47."
  },
  {
   "property": "C57",
   "status": "partial",
   "theorems": [
    "NT.C57_cd",
    "NT.C57_start",
    "NT.C57_up",
    "NT.C57_back_iff",
    "NT.C57_session_partial",
    "NT.C57_current",
    "NT.C57_negation"
   ],
   "note": "Violated (C57_negation): a directory named `a\\b` makes `cd ..` lose track; two of them empty the directory stack and the next command panics. C57_session_partial: every session stays in step until a directory is entered whose name is empty or contains a backslash; C57_back_iff: the exact condition."
  },
  {
   "property": "C59",
   "status": "partial",
   "theorems": [
    "NT.C59_by_name",
    "NT.C59_no_such_file",
    "NT.C59_by_number",
    "NT.C59_start_partial",
    "NT.C59_get",
    "NT.C59_get_no_stream",
    "NT.C59_cd",
    "NT.C59_dir",
    "NT.C59_end_to_end_partial"
   ],
   "note": "Proved for the shell over a plain reader that does not fail, the directory sorted and the name in one entry only. C60_end_to_end and C60_shell carry it over to any reader and to the BufReader<SectorReader<File>> of main, with the exception near the end of the image that C61 describes. C59_get_no_stream also shows that `get` has created an empty output file before it reports a missing stream."
  },
  {
   "property": "C58",
   "status": "proved",
   "theorems": [
    "NT.C58_command",
    "NT.C58_command_alone",
    "NT.C58_stream",
    "NT.C58_output",
    "NT.C58_record_number",
    "NT.C58_utf16",
    "NT.C58_utf16_injective"
   ],
   "note": "Both directions for record numbers; the std string functions are external, modelled in Model/Shell.lean."
  },
  {
   "property": "C60",
   "status": "proved",
   "theorems": [
    "NT.C60_programs",
    "NT.C60_reader",
    "NT.C60_reader_ok",
    "NT.C60_same_or_reports",
    "NT.C60_get",
    "NT.C60_dir",
    "NT.C60_end_to_end",
    "NT.C60_shell",
    "NT.C60_stack_honest",
    "NT.C60_stack_request",
    "NT.C60_stack",
    "NT.C60_stack_padded"
   ],
   "note": "Every device-using operation of the model is a Prog (C60_programs). Answers of Interrupted are excluded (C07). std BufReader is external, modelled in Model/Reader.lean."
  },
  {
   "property": "C61",
   "status": "partial",
   "theorems": [
    "NT.C61_open_partial",
    "NT.C61_negation",
    "NT.C61_run_partial",
    "NT.C61_end_negation",
    "NT.C61_pieces",
    "NT.C61_as_one_request"
   ],
   "note": "Violated: a volume shorter than 12288 bytes cannot be opened (C61_negation), data in the last 8192 bytes of any volume cannot be read (C61_end_negation). The partial theorems give the exact condition. Reading in pieces after a seek (as binrw reads the boot sector) has the outcome of one request (C61_pieces, C61_as_one_request)."
  },
  {
   "property": "C62",
   "status": "proved",
   "theorems": [
    "NT.C62_fileinfo",
    "NT.C62_determined",
    "NT.C62_nothing_hidden",
    "NT.C62_shown_is_found",
    "NT.C62_command",
    "NT.C62_fsinfo",
    "NT.C62_no_file"
   ],
   "note": "Resident standard information and the file names have to lie inside their attributes, and file names have to be resident; otherwise the outcome is that of C20/C21/C23. Text layout and the formatting of times are external."
  },
  {
   "property": "C63",
   "status": "proved",
   "theorems": [
    "NT.C63_attr",
    "NT.C63_determined",
    "NT.C63_no_file",
    "NT.C63_command",
    "NT.C63_nothing_hidden",
    "NT.C63_runs_locate",
    "NT.C63_fileinfo_disagrees"
   ],
   "note": "The record must not end inside the header of an attribute (else the command panics, C21), and attribute lists must be stored properly with entries of known types. C63_fileinfo_disagrees shows that `attr` lists a stream that `fileinfo` does not (a consequence of C50). Table header and text layout are external."
  },
  {
   "property": "C65",
   "status": "proved",
   "theorems": [
    "NT.C65_results",
    "NT.C65_history",
    "NT.C65_reader",
    "NT.C65_two_readers",
    "NT.C65_same_or_reports",
    "NT.C65_stack",
    "NT.C65_run_negation"
   ],
   "note": "Readers without failures (failures are C54, C60) and images below 2^64 bytes. `NtfsDataRun::read` alone, as yielded by `data_runs()`, does depend on the reader (C65_run_negation)."
  },
  {
   "property": "C64",
   "status": "proved",
   "theorems": [
    "NT.C64_dir",
    "NT.C64_fileinfo",
    "NT.C64_attr",
    "NT.C64_fsinfo",
    "NT.C64_no_file",
    "NT.C64_get_no_file",
    "NT.C64_get",
    "NT.C64_cd_nowhere",
    "NT.C64_help",
    "NT.C64_after_end",
    "NT.C64_no_error_ends",
    "NT.C64_cut",
    "NT.C64_panic_ends",
    "NT.C64_panic_from",
    "NT.C64_typed",
    "NT.C64_command",
    "NT.C64_one_result",
    "NT.C64_stack",
    "NT.C64_only_cd",
    "NT.C64_prompts",
    "NT.C64_all_lines",
    "NT.C64_host",
    "NT.C64_contents",
    "NT.C64_second_get",
    "NT.C64_announced",
    "NT.C64_walk",
    "NT.C64_walk_and_get",
    "NT.C64_panic_negation"
   ],
   "note": "Panics end a session (also a line that is not UTF-8), and one can be reached by accepted commands (C64_panic_negation, from C57). Two different names are taken to be two different host files. A failed get leaves a file that blocks every later get of that name (C64_second_get)."
  },
  {
   "property": "C66",
   "status": "partial",
   "theorems": [
    "NT.C66_location_partial",
    "NT.C66_negation"
   ],
   "note": "The claim of the help text is false for arguments with a slash, among them the documented form /N (C66_negation, for every volume and device). C66_location_partial is the exact condition."
  },
  {
   "property": "C67",
   "status": "proved",
   "theorems": [
    "NT.C67_data_runs",
    "NT.C67_attributes_raw",
    "NT.C67_node",
    "NT.C67_list_entries",
    "NT.C67_records",
    "NT.C67_attributes",
    "NT.C67_index_entries"
   ],
   "note": "All seven iterators; the attached variants pass the calls through. The last None of data runs moves the offset to the end, all the others leave the state as it was."
  },
  {
   "property": "C68",
   "status": "partial",
   "theorems": [
    "NT.C68_attributes_partial",
    "NT.C68_rewind_partial",
    "NT.C68_value_negation",
    "NT.C68_list_entries",
    "NT.C68_records_partial",
    "NT.C68_index_gaps_partial",
    "NT.C68_index_negation",
    "NT.C68_attributes_negation"
   ],
   "note": "Proved in full for attribute list entries (C68_list_entries). Index records: only when the allocation is one attribute. Index entries: exactly one subtree is lost per failure; that nothing is lost is false. Split values: repaired by a seek backwards; that a read or forward seek continues is false. Attributes of a file (C68_attributes_partial): each failure takes the place of at most one attribute, and if that was split, its further parts may be shown as attributes of their own; nothing else changes; that nothing is lost is false."
  },
  {
   "property": "C69",
   "status": "partial",
   "theorems": [
    "NT.C69_errors",
    "NT.C69_errors_back",
    "NT.C69_stream_position",
    "NT.C69_read_exact",
    "NT.C69_std_file",
    "NT.C69_is_empty",
    "NT.C69_read_to_end_partial",
    "NT.C69_interrupted_negation",
    "NT.C69_read_to_end_any_partial"
   ],
   "note": "All but one part: with a reader that is interrupted, read_to_end can lose data and report success (C69_interrupted_negation, same cause as C07), so C69_read_to_end_partial assumes that no failure is Interrupted. C69_read_to_end_any_partial: over any reader, interruptions included, what is collected is a sublist of the bytes passed, in order, so a caller who compares the number of bytes detects every loss."
  },
  {
   "property": "C70",
   "status": "proved",
   "theorems": [
    "NT.C70_volume",
    "NT.C70_file",
    "NT.C70_attributes",
    "NT.C70_iterators",
    "NT.C70_attribute",
    "NT.C70_value",
    "NT.C70_index"
   ],
   "note": "Over every handle reachable through the API (Spec.Obtained) and every device. Fuel only occurs in the lookups that loop over all attributes, and 2^97 always suffices."
  },
  {
   "property": "C71",
   "status": "partial",
   "theorems": [
    "NT.C71_tells_partial",
    "NT.C71_total_sectors_negation",
    "NT.C71_position",
    "NT.C71_numbers",
    "NT.C71_file_sizes",
    "NT.C71_index_sizes_partial",
    "NT.C71_index_sizes_negation",
    "NT.C71_attribute_length",
    "NT.C71_attribute_length_partial",
    "NT.C71_attribute_length_negation",
    "NT.C71_entry_size",
    "NT.C71_entry_size_partial",
    "NT.C71_entry_size_negation",
    "NT.C71_structured",
    "NT.C71_structured_partial",
    "NT.C71_volume_information_negation",
    "NT.C71_index_root_negation",
    "NT.C71_name_length_negation",
    "NT.C71_template"
   ],
   "note": "The messages tell all errors apart except the one about the total sector count, which omits the count. Positions are always told. The sizes are told correctly for file records, and for attributes and index entries that exceed their container. They are swapped for index records, and wrong for attributes shorter than a header and for rests of nodes shorter than an entry header: negations with witnesses, and theorems that state what the messages say instead. C71_template: every message is its documented format string with the fields filled in under their names. C71_structured: the sizes of structured values; wrong for volume information, index roots and names longer than their value (three negations)."
  },
  {
   "property": "C72",
   "status": "partial",
   "theorems": [
    "NT.C72_number",
    "NT.C72_live",
    "NT.C72_sequence_ignored",
    "NT.C72_checked_partial",
    "NT.C72_negation",
    "NT.C72_deleted_negation"
   ],
   "note": "The number is always that of the reference and a stored record with both numbers is found. The sequence number is not compared: a stale reference opens another file, and a reference to a deleted file opens its record (negations with witnesses). C72_checked_partial states that a caller can detect both with the accessors of the file."
  },
  {
   "property": "C73",
   "status": "partial",
   "theorems": [
    "NT.C73_resident",
    "NT.C73_non_resident",
    "NT.C73_same_partial",
    "NT.C73_sound_lists",
    "NT.C73_final",
    "NT.C73_negation"
   ],
   "note": "Exact law of any number of calls for both forms and arbitrary contents. The forms agree on all contents in which no entry claims more bytes than are left. Such an entry is returned from clusters and silently dropped from a resident list: negation with witness."
  },
  {
   "property": "C74",
   "status": "proved",
   "theorems": [
    "NT.C74_text",
    "NT.C74_tells",
    "NT.C74_file",
    "NT.C74_attribute",
    "NT.C74_index_entry",
    "NT.C74_structured",
    "NT.C74_shown",
    "NT.C74_directory_negation"
   ],
   "note": "The loop of bitflags 2 that prints the names is transcribed and trusted. C74_directory_negation: the documentation of IS_DIRECTORY says that only file names return it; standard information with this bit returns it too."
  },
  {
   "property": "C75",
   "status": "partial",
   "theorems": [
    "NT.C75_lines",
    "NT.C75_dir_partial",
    "NT.C75_record_number",
    "NT.C75_row",
    "NT.C75_attribute_row",
    "NT.C75_run_row",
    "NT.C75_aligned",
    "NT.C75_attr_partial",
    "NT.C75_record_lines",
    "NT.C75_std_lines",
    "NT.C75_name_lines",
    "NT.C75_fileinfo_partial",
    "NT.C75_fsinfo_lines",
    "NT.C75_fsinfo_partial",
    "NT.C75_dir_negation"
   ],
   "note": "The text of dir, attr, fileinfo and fsinfo is modelled to the character; rows and lines are proved to hold the values under their labels, to be aligned and to be injective. C75_dir_negation: a file name with a newline makes dir print the text of another directory. Time formatting is a parameter."
  },
  {
   "property": "C76",
   "status": "partial",
   "theorems": [
    "NT.C76_lossless",
    "NT.C76_apart",
    "NT.C76_surrogate",
    "NT.C76_input",
    "NT.C76_argument",
    "NT.C76_shown",
    "NT.C76_fileinfo_partial",
    "NT.C76_attr_partial",
    "NT.C76_get_partial",
    "NT.C76_cd_partial",
    "NT.C76_slash",
    "NT.C76_colon",
    "NT.C76_unknown",
    "NT.C76_negation"
   ],
   "note": "C76_lossless, C76_argument and C76_input are exact (iff) for the surrogates, the white space and the newlines; the commands are proved for typable names, and C76_slash, C76_colon, C76_surrogate and C76_unknown say what happens with the others. The claim for all names is false, hence partial."
  },
  {
   "property": "C77",
   "status": "partial",
   "theorems": [
    "NT.C77_negation_root",
    "NT.C77_negation_list",
    "NT.C77_negation_mismatch",
    "NT.C77_index_record",
    "NT.C77_index_records",
    "NT.C77_record_entries",
    "NT.C77_index_entries_partial",
    "NT.C77_find_partial",
    "NT.C77_subnodes",
    "NT.C77_list_non_resident",
    "NT.C77_list_entry_bytes",
    "NT.C77_list_resident_partial",
    "NT.C77_file",
    "NT.C77_attribute",
    "NT.C77_data_runs_start",
    "NT.C77_attribute_errors",
    "NT.C77_data_runs",
    "NT.C77_node_entries",
    "NT.C77_index_root_partial",
    "NT.C77_index_new_partial",
    "NT.C77_list_start_partial",
    "NT.C77_key",
    "NT.C77_entry_data",
    "NT.C77_entry_errors",
    "NT.C77_record_errors_partial",
    "NT.C77_file_errors_partial",
    "NT.C77_index_record_errors_partial"
   ],
   "note": "Proved in full for files, attributes, data runs, index records and their entries, keys and data, and non-resident attribute lists. C77_index_root_partial, C77_list_start_partial, C77_list_resident_partial and C77_record_errors_partial say by how much the others are off, and the three negations show it on concrete images; index nodes and list entries are asked to lie in one extent, since one that spans two has no single address."
  },
  {
   "property": "C78",
   "status": "proved",
   "theorems": [
    "NT.C78_new",
    "NT.C78_file",
    "NT.C78_value",
    "NT.C78_find",
    "NT.C78_entries",
    "NT.C78_shell",
    "NT.C78_volume_file",
    "NT.C78_volume_attributes",
    "NT.C78_volume_lookup",
    "NT.C78_volume_value",
    "NT.C78_volume_stream",
    "NT.C78_volume_info",
    "NT.C78_volume_directory",
    "NT.C78_volume_session"
   ],
   "note": "C78_new, C78_file, C78_value, C78_find and C78_entries name the places of one operation; the C78_volume theorems cover everything that starts from a volume, for any set of places that covers it (Spec.Covers; Spec.Used is the least one, Spec.Covers.ofStored gives one from the layout of the volume). C78_shell is the whole shell, opening of the volume included."
  },
  {
   "property": "C79",
   "status": "proved",
   "theorems": [
    "NT.C79_record",
    "NT.C79_file",
    "NT.C79_value",
    "NT.C79_index_record",
    "NT.C79_loads",
    "NT.C79_find",
    "NT.C79_list",
    "NT.C79_small"
   ],
   "note": "C79_record, C79_file, C79_value, C79_index_record, C79_find, C79_list and C79_small. Not counted: Ntfs::new and structured values (binrw issues one read per field, the model one per header) and values stored through an attribute list."
  },
  {
   "property": "C80",
   "status": "proved",
   "theorems": [
    "NT.C80_no_panic",
    "NT.C80_opened",
    "NT.C80_no_allocation"
   ],
   "note": "C80_no_panic and C80_opened: for everything obtained (Use.Obtained) by calls (Use.Call) from the volume, under Spec.Harmless (records of files) and Use.NodesOk (index records). C80_no_allocation: on a volume without $INDEX_ALLOCATION attributes the second condition holds by itself. That the conditions are needed is shown by C14_negation, C21_negation, C49_negation, C29_root_negation, C29_node_negation, C29_record_negation and C31_panics_without_table. Conversions of times and the shell are not among the calls. The example volume has no index allocation, so its NodesOk holds because no index record can be reached; an index record that meets NodeOk is shown separately."
  },
  {
   "property": "C81",
   "status": "proved",
   "theorems": [
    "NT.C81_command",
    "NT.C81_shell",
    "NT.C81_start",
    "NT.C81_keyless",
    "NT.C81_keyless_negation"
   ],
   "note": "C81_shell, C81_command, C81_start. Use.Fit says that the shell has its files and its volume from the volume opened (in the sense of C80); Shell.start establishes it. The reasons are real: C81_keyless and C81_keyless_negation (an entry without key), C64_panic_negation (a backslash), and the model of read_line for lines that are not UTF-8. Failures of writing to the terminal, which println! turns into panics, are not modelled."
  },
  {
   "property": "C82",
   "status": "partial",
   "theorems": [
    "NT.C82_numbers",
    "NT.C82_command_partial",
    "NT.C82_only_cycles",
    "NT.C82_shell_partial",
    "NT.C82_hangs"
   ],
   "note": "C82_numbers, C82_command_partial, C82_only_cycles, C82_shell_partial. The full claim, that every command comes back on every image, is false: C82_hangs shows that dir, and attr, fileinfo, get and cd with a name, do not come back in a directory whose index leads through last entries into records that lead into such records again, for every number of rounds; the example is a directory with an index record that is its own subnode."
  },
  {
   "property": "C83",
   "status": "partial",
   "theorems": [
    "NT.C83_exact_partial",
    "NT.C83_whole",
    "NT.C83_sparse",
    "NT.C83_unnoticed",
    "NT.C83_negation",
    "NT.C83_split_partial"
   ],
   "note": "C83_exact_partial, C83_split_partial, C83_whole, C83_sparse, C83_unnoticed. The full claim is false: C83_negation is an attribute of 8 bytes of which 3 are initialised that reads the stale bytes of its cluster."
  },
  {
   "property": "C84",
   "status": "partial",
   "theorems": [
    "NT.C84_split_partial",
    "NT.C84_exact_partial",
    "NT.C84_plain_partial",
    "NT.C84_reported",
    "NT.C84_ignored",
    "NT.C84_negation"
   ],
   "note": "C84_exact_partial, C84_split_partial, C84_plain_partial, C84_reported, C84_ignored. The full claim is false: C84_negation is a compressed value of sixteen equal letters that reads as the compressed bytes followed by zeros, without an error."
  },
  {
   "property": "C85",
   "status": "partial",
   "theorems": [
    "NT.C85_attributes",
    "NT.C85_data",
    "NT.C85_node",
    "NT.C85_entries",
    "NT.C85_find",
    "NT.C85_directory",
    "NT.C85_inorder",
    "NT.C85_find_file",
    "NT.C85_file",
    "NT.C85_subnode",
    "NT.C85_list",
    "NT.C85_open",
    "NT.C85_split",
    "NT.C85_split_file",
    "NT.C85_read",
    "NT.C85_history",
    "NT.C85_value_partial",
    "NT.C85_wraps",
    "NT.C85_value_negation",
    "NT.C85_fixup",
    "NT.C85_fixup_refused_partial",
    "NT.C85_fixup_negation",
    "NT.C85_sizes",
    "NT.C85_record",
    "NT.C85_no_end",
    "NT.C85_index_record",
    "NT.C85_record_negation"
   ],
   "note": "C85_read, C85_history, C85_value_partial, C85_fixup, C85_sizes, C85_index_record, C85_file, C85_list, C85_open, C85_split, C85_attributes, C85_data, C85_node, C85_entries, C85_find and C85_directory: the builds agree unless the debug build stops; C85_split_file: healthy split values read as one flat file in a release build too; C85_inorder and C85_find_file: so do directories show their entries in order and find names. C85_wraps, C85_fixup_refused_partial, C85_record, C85_no_end: what happens otherwise. The full claim is false: C85_value_negation reads the boot sector as file contents, C85_fixup_negation puts wrong bytes into a record of 32 MiB, C85_record_negation shows a damaged node as an empty one. Release versions exist of the functions with such additions (Model/Release.lean), of opening files and values (Model/ReleaseOps.lean) and of attributes, directories and lookups (Model/ReleaseIndex.lean); C85_subnode: the subtraction in subnode_vcn needs none. The shell and the structured values have no release versions."
  },
  {
   "property": "C86",
   "status": "partial",
   "theorems": [
    "NT.C86_owner_unnoticed",
    "NT.C86_in_order",
    "NT.C86_exact_partial",
    "NT.C86_list_unnoticed",
    "NT.C86_order_negation",
    "NT.C86_stale_negation",
    "NT.C86_owner_negation"
   ],
   "note": "C86_in_order: parts in order are read at their clusters. C86_exact_partial: the value is the parts in the order of the list, whatever their first clusters are. C86_owner_unnoticed and C86_list_unnoticed: the reference to the owner, the sequence numbers and the first clusters have no influence on anything. The full claim is false: C86_order_negation, C86_stale_negation, C86_owner_negation."
  },
  {
   "property": "C87",
   "status": "partial",
   "theorems": [
    "NT.C87_small_partial",
    "NT.C87_read_partial",
    "NT.C87_copy_partial",
    "NT.C87_empty_negation",
    "NT.C87_shift_negation",
    "NT.C87_split_partial"
   ],
   "note": "C87_small_partial: values and runs below 4 GiB behave the same, over every device and for every history. C87_read_partial and C87_copy_partial: for values of any size with runs below 4 GiB, a read delivers the right bytes but sees only the lower 32 bits of the remaining length, so that a copy ends after size % 2^32 bytes without an error; C87_split_partial says the same for values split over several records. The full claim is false: C87_empty_negation (a file of 4 GiB is empty), C87_shift_negation (behind a run of 4 GiB the bytes are delivered in the wrong place)."
  },
  {
   "property": "C88",
   "status": "partial",
   "theorems": [
    "NT.C88_root_accepted",
    "NT.C88_root_refused_partial",
    "NT.C88_root_wraps",
    "NT.C88_root_used_wraps",
    "NT.C88_root_negation",
    "NT.C88_record_partial",
    "NT.C88_record_wraps",
    "NT.C88_record_negation",
    "NT.C88_attribute"
   ],
   "note": "C88_root_accepted: an index root that a 64-bit target accepts is accepted with the same entries by both builds for a 32-bit target. C88_root_refused_partial: one that is refused is refused with the same error in a debug build, or stops it, exactly if an offset or size is within 16 bytes of 4 GiB. C88_root_wraps, C88_root_used_wraps: what a release build does then. C88_record_partial and C88_record_wraps: the same for index records. C88_attribute: for attributes no sum overflows. The full claim is false: C88_root_negation and C88_record_negation, a release build shows the header of the node as an entry."
  },
  {
   "property": "C89",
   "status": "partial",
   "theorems": [
    "NT.C89_file",
    "NT.C89_record",
    "NT.C89_node",
    "NT.C89_volume_partial",
    "NT.C89_root_any",
    "NT.C89_negation",
    "NT.C89_held",
    "NT.C89_grows",
    "NT.C89_depth_partial",
    "NT.C89_tree_partial"
   ],
   "note": "Exact sizes over every reader: C89_file, C89_record, C89_node, and C89_held for every state of an iteration (the root and one index record per level). C89_volume_partial: 1 to 4 KiB if the record size is given as an exponent, else up to 127 clusters. C89_depth_partial: over one image, whatever calls fail, the stack stays within the greatest height of the records plus the root. C89_tree_partial: for an index stored as a tree it never holds more nodes than the tree is deep (needs calls that are not interrupted). The bound itself is false: C89_negation (512 bytes are accepted as a volume with records of 254 MiB; an index root may name index records of almost 4 GiB), C89_root_any (no size is ever refused), C89_grows (in a cyclic index the first call of next holds one more record after every round). The buffers of loads that fail are not visible in results; they are allocated with the same sizes before the first byte is read."
  }
 ]
}