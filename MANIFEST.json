{
 "claims": [
  {
   "property": "C01",
   "status": "proved",
   "theorems": [
    "Verif.RBytes.C01_primitive_sequence_roundtrip"
   ],
   "note": "All sequences of the 11 primitive kinds; arbitrary prefix, suffix, offset and spare-capacity contents."
  },
  {
   "property": "C02",
   "status": "partial",
   "theorems": [
    "Verif.RBytes.C02_string_roundtrip_partial",
    "Verif.RBytes.C02_leading_nul_counterexample"
   ],
   "note": "Holds for strings not starting with NUL and shorter than 4 GiB; false for strings starting with NUL (proved counterexample)."
  },
  {
   "property": "C03",
   "status": "proved",
   "theorems": [
    "Verif.RBytes.C03_header_delimits_payload",
    "Verif.RBytes.C03_nested_objects_roundtrip",
    "Verif.RBytes.C03_size_limit_counterexample"
   ],
   "note": "For payloads below 1 GiB (shown sharp) and versions without the member-wise bit; no streamer context."
  },
  {
   "property": "C04",
   "status": "partial",
   "theorems": [
    "Verif.RBytes.C04_truncated_primitive_fails_partial",
    "Verif.RBytes.C04_error_state_is_sticky",
    "Verif.RBytes.C04_spare_capacity_counterexample",
    "Verif.RBytes.C04_truncated_string_counterexample"
   ],
   "note": "Sticky error state proved in full. Truncated primitives fail when the slice has no spare capacity; false with spare capacity and for strings (proved counterexamples)."
  },
  {
   "property": "C05",
   "status": "proved",
   "theorems": [
    "Verif.RBytes.C05_array_roundtrip"
   ],
   "note": "All element widths; bool/8-bit readers are the k=1 case."
  },
  {
   "property": "C06",
   "status": "proved",
   "theorems": [
    "Verif.FreeList.C06_release_history",
    "Verif.FreeList.C06_add_covers",
    "Verif.FreeList.C06_add_separated",
    "Verif.FreeList.C06_overlap_counterexample"
   ],
   "note": "Any history of releases of disjoint segments; coverage also proved for overlapping releases; separation shown to need disjointness."
  },
  {
   "property": "C07",
   "status": "proved",
   "theorems": [
    "Verif.FreeList.C07_best_fit"
   ],
   "note": "Exact characterisation of the selected segment on non-empty lists."
  },
  {
   "property": "C08",
   "status": "partial",
   "theorems": [
    "Verif.Riofs.C08_datime_roundtrip_partial",
    "Verif.Riofs.C08_early_years_rejected",
    "Verif.Riofs.C08_late_years_counterexample",
    "Verif.Riofs.C08_negative_years_counterexample"
   ],
   "note": "Lossless for 1995..2058; years from 2059 wrap silently and years before 0 are not rejected (proved)."
  },
  {
   "property": "C09",
   "status": "partial",
   "theorems": [
    "Verif.Riofs.C09_parse_format_partial",
    "Verif.Riofs.C09_parse_injective_partial",
    "Verif.Riofs.C09_aliasing_counterexample"
   ],
   "note": "Exact for 16-bit cycles; larger numbers alias, malformed cycles mean highest, a second separator panics (proved)."
  },
  {
   "property": "C10",
   "status": "partial",
   "theorems": [
    "Verif.Riofs.C10_key_roundtrip_partial",
    "Verif.Riofs.C10_key_length_partial",
    "Verif.Riofs.C10_long_name_counterexample"
   ],
   "note": "Round trip and length for keys in range (both layouts); keys with names of about 32 KiB announce a negative length (proved)."
  },
  {
   "property": "C100",
   "status": "partial",
   "theorems": [
    "Verif.Rdict.C100_go_struct_roundtrip_partial",
    "Verif.Rdict.C100_tag_counter",
    "Verif.Rdict.C100_tag_number",
    "Verif.Rdict.C100_builtin_name_counterexample"
   ],
   "note": "Types and values of C97, streamer infos of nested structs registered, struct names other than those of C++ types: with such a name encoding fails (proved)."
  },
  {
   "property": "C101",
   "status": "partial",
   "theorems": [
    "Verif.Hbook.RootCnv.C101_hist_roundtrip_partial",
    "Verif.Hbook.RootCnv.C101_entries_partial",
    "Verif.Hbook.RootCnv.C101_entries_counterexample",
    "Verif.Hbook.RootCnv.C101_gap_counterexample",
    "Verif.Hbook.RootCnv.C101_int_counterexample"
   ],
   "note": "Any arithmetic in which the widths of the bins are computed exactly and the sums of weights fit the cells (always for TH1D). The entries of a bin come back if its weights were equal and positive, otherwise not (proved); the moments of single bins are lost; gaps between bins are closed (proved); TH1I truncates (proved)."
  },
  {
   "property": "C102",
   "status": "partial",
   "theorems": [
    "Verif.Hbook.RootCnv.C102_root_roundtrip_partial",
    "Verif.Hbook.RootCnv.C102_no_errors_counterexample"
   ],
   "note": "Histograms with explicit edges and stored squared weights. Without stored squared weights, the default in ROOT, all errors become zero (proved)."
  },
  {
   "property": "C103",
   "status": "partial",
   "theorems": [
    "Verif.Hbook.RootCnv.C103_merge_partial",
    "Verif.Hbook.RootCnv.C103_edges_counterexample",
    "Verif.Hbook.RootCnv.C103_no_errors_counterexample"
   ],
   "note": "Any arithmetic with exact widths and 1*x = x. Histograms with equal range and number of bins but different edges are added (proved), errors are lost without stored squared weights (proved)."
  },
  {
   "property": "C104",
   "status": "partial",
   "theorems": [
    "Verif.Hbook.RootCnv.C104_hist2d_roundtrip_partial",
    "Verif.Hbook.RootCnv.C104_outflow_counterexample",
    "Verif.Hbook.RootCnv.C104_fill_counterexample"
   ],
   "note": "Any arithmetic with exact widths, sums that fit the cells. The outflows come back but sit in the wrong cells of the ROOT histogram (proved), and a converted histogram with columns of different widths counts fills in the wrong bins (proved)."
  },
  {
   "property": "C105",
   "status": "proved",
   "theorems": [
    "Verif.Hbook.RootCnv.C105_graph_roundtrip",
    "Verif.Hbook.RootCnv.C105_graph_merge",
    "Verif.Hbook.RootCnv.C105_graph_bounds",
    "Verif.Hbook.RootCnv.C105_merge_bounds"
   ],
   "note": "Titles absent or strings: a title of another type, or nil, panics. Any numbers; for the bounds no NaN."
  },
  {
   "property": "C106",
   "status": "partial",
   "theorems": [
    "Verif.Csv.C106_rows_roundtrip_partial",
    "Verif.Csv.C106_lone_empty_counterexample",
    "Verif.Csv.C106_crlf_counterexample",
    "Verif.Csv.C106_comment_counterexample",
    "Verif.Csv.C106_slice_counterexample",
    "Verif.Csv.C106_missing_column_counterexample",
    "Verif.Csv.C106_columns_counterexample"
   ],
   "note": "Any notation of floating-point numbers that is read back; encoding/csv modelled from its documentation. False for a row made of one empty text, for texts with carriage return and line feed in sequence, for rows looking like comments, for slices, and for rows of different lengths (proved); missing columns are not reported (proved)."
  },
  {
   "property": "C107",
   "status": "partial",
   "theorems": [
    "Verif.Csv.C107_rows_partial",
    "Verif.Csv.C107_beyond",
    "Verif.Csv.C107_scan",
    "Verif.Csv.C107_second_counterexample",
    "Verif.Csv.C107_negative_counterexample",
    "Verif.Csv.C107_eof_counterexample"
   ],
   "note": "Intervals with 0 <= beg <= end, counted from where the table is: a second call of ReadRows does not start at the beginning of the file (proved), a negative beg delivers too many rows (proved), and reading all rows ends with io.EOF (proved)."
  },
  {
   "property": "C108",
   "status": "partial",
   "theorems": [
    "Verif.Csv.C108_order_partial",
    "Verif.Csv.C108_append_partial",
    "Verif.Csv.C108_header_line",
    "Verif.Csv.C108_header_counterexample",
    "Verif.Csv.C108_glue_counterexample"
   ],
   "note": "Headers written after rows overtake them (proved); rows appended to a file without a final newline continue its last line (proved)."
  },
  {
   "property": "C109",
   "status": "proved",
   "theorems": [
    "Verif.Fwk.Parallel.C109_limit",
    "Verif.Fwk.Parallel.C109_wait",
    "Verif.Fwk.Parallel.C109_no_panic",
    "Verif.Fwk.Parallel.C109_progress",
    "Verif.Fwk.Parallel.C109_terminates",
    "Verif.Fwk.Parallel.C109_zero_counterexample"
   ],
   "note": "For limits of at least 1; with limit 0 every Do waits forever (proved). The functions return, do not panic and do not use the Run themselves; Wait is called once, after the last Do."
  },
  {
   "property": "C11",
   "status": "partial",
   "theorems": [
    "Verif.Riofs.C11_put_get_partial",
    "Verif.Riofs.C11_semicolon_counterexample",
    "Verif.Riofs.C11_cycle_9999_counterexample",
    "Verif.Riofs.C11_cycle_wrap_counterexample",
    "Verif.Riofs.C11_rewritten_class_counterexample"
   ],
   "note": "Proved for names without ; and / and cycles below 32767; the excluded cases are shown to fail."
  },
  {
   "property": "C110",
   "status": "partial",
   "theorems": [
    "Verif.Remote.C110_cached_read",
    "Verif.Remote.C110_once",
    "Verif.Remote.C110_no_error",
    "Verif.Remote.C110_progress",
    "Verif.Remote.C110_short_counterexample"
   ],
   "note": "Reads inside the file, with a remote reader that answers with all bytes asked for or an error. An answer with fewer bytes and no error, as the HTTP reader gives after a lost connection, leaves what the buffer held before in the cache (proved)."
  },
  {
   "property": "C111",
   "status": "partial",
   "theorems": [
    "Verif.Remote.C111_read_at_partial",
    "Verif.Remote.C111_changed",
    "Verif.Remote.C111_eof_counterexample",
    "Verif.Remote.C111_lost_counterexample",
    "Verif.Remote.C111_read_sequence",
    "Verif.Remote.C111_parallel",
    "Verif.Remote.C111_honest"
   ],
   "note": "Missing: the error at the end of the file and after a lost connection; ReadAt returns fewer bytes without an error then (proved)."
  },
  {
   "property": "C112",
   "status": "partial",
   "theorems": [
    "Verif.Remote.Xrd.C112_ops_partial",
    "Verif.Remote.Xrd.C112_read_all",
    "Verif.Remote.Xrd.C112_read_at_partial",
    "Verif.Remote.Xrd.C112_short_counterexample",
    "Verif.Remote.Xrd.C112_seek_end_counterexample",
    "Verif.Remote.Xrd.C112_beyond_counterexample",
    "Verif.Remote.Xrd.C112_negative_counterexample"
   ],
   "note": "For servers answering with the bytes they have, files not changing. False: seeks relative to the end go the wrong way, behind the end reads return nothing and no error for ever, seeks to negative positions are accepted, ReadAt returns fewer bytes without an error (all proved)."
  },
  {
   "property": "C113",
   "status": "partial",
   "theorems": [
    "Verif.Remote.Xrd.C113_parse",
    "Verif.Remote.Xrd.C113_local",
    "Verif.Remote.Xrd.C113_sound",
    "Verif.Remote.Xrd.C113_colons",
    "Verif.Remote.Xrd.C113_panic_counterexample"
   ],
   "note": "Names with a scheme and no slash after the address are a panic instead of an error (proved). net.SplitHostPort modelled from the Go standard library."
  },
  {
   "property": "C114",
   "status": "partial",
   "theorems": [
    "Verif.Ntup.C114_query_partial",
    "Verif.Ntup.C114_nested_counterexample",
    "Verif.Ntup.C114_order_counterexample"
   ],
   "note": "For queries in which where occurs at most once, in upper or lower case, and order only after it: a second where and all that follows is dropped, an order without a condition is put before the name of the n-tuple (proved)."
  },
  {
   "property": "C115",
   "status": "partial",
   "theorems": [
    "Verif.Ntup.C115_scan",
    "Verif.Ntup.C115_fill",
    "Verif.Ntup.C115_histogram_partial",
    "Verif.Ntup.C115_axis",
    "Verif.Ntup.C115_overflow_counterexample",
    "Verif.Ntup.C115_panic_counterexample"
   ],
   "note": "All values in the bins: for exact arithmetic. With binary64 the last edge may be rounded down to the largest value, which is then counted as overflow (proved for 0 and 13); no rows, or a single value of at least 2^53, panic (proved). ScanH2D is not modelled."
  },
  {
   "property": "C116",
   "status": "proved",
   "theorems": [
    "Verif.Ntup.C116_struct",
    "Verif.Ntup.C116_values"
   ],
   "note": "Types are modelled by kind and name. Values implementing ntup.Descriptor are treated as values, in spite of the documentation of Create."
  },
  {
   "property": "C117",
   "status": "partial",
   "theorems": [
    "Verif.Slha.C117_index",
    "Verif.Slha.C117_coords",
    "Verif.Slha.C117_coords_counterexample",
    "Verif.Slha.C117_get_set",
    "Verif.Slha.C117_get_other",
    "Verif.Slha.C117_history",
    "Verif.Slha.C117_order",
    "Verif.Slha.C117_distinct",
    "Verif.Slha.C117_items"
   ],
   "note": "All of it, except that the index of no integers gives back one, 0 (proved)."
  },
  {
   "property": "C118",
   "status": "partial",
   "theorems": [
    "Verif.Slha.C118_round_trip_partial",
    "Verif.Slha.C118_stable_partial",
    "Verif.Slha.C118_text_counterexample",
    "Verif.Slha.C118_space_counterexample",
    "Verif.Slha.C118_rank_counterexample",
    "Verif.Slha.C118_name_counterexample",
    "Verif.Slha.C118_width_counterexample",
    "Verif.Slha.C118_int_counterexample"
   ],
   "note": "For documents whose blocks have the indices and kinds of values of the accord; the notations of numbers are parameters. False, proved: texts in other blocks and texts with spaces are written but cannot be read; integers of other blocks come back as numbers; values without indices get the index 0; names come back in capitals; infinite widths cannot be read."
  },
  {
   "property": "C119",
   "status": "partial",
   "theorems": [
    "Verif.Slha.C119_panic_partial",
    "Verif.Slha.C119_panics_counterexample"
   ],
   "note": "False for data lines that are too short, exactly described: blank ones in a block; in a decay blank ones, ones without or with a negative number of particles, or with fewer particles than that. The limit of 64 KiB per line is not modelled."
  },
  {
   "property": "C12",
   "status": "partial",
   "theorems": [
    "Verif.Riofs.C12_records_disjoint_partial",
    "Verif.Riofs.C12_large_payload_counterexample"
   ],
   "note": "All sequences of requests below 2.1 GB each; a payload of nearly 2 GiB moves the end of file backwards (proved)."
  },
  {
   "property": "C120",
   "status": "partial",
   "theorems": [
    "Verif.Hepevt.C120_round_trip",
    "Verif.Hepevt.C120_sequence",
    "Verif.Hepevt.C120_negative_counterexample",
    "Verif.Hepevt.C120_short_counterexample",
    "Verif.Hepevt.C120_uneven_counterexample"
   ],
   "note": "Complete for events with at least as many particles as they tell and variables whose slices have one length; the notation of floating-point numbers is a parameter. False, proved: a negative number of particles in the text, and slices of different lengths, make Decode panic; Encode of an event with too few particles panics."
  },
  {
   "property": "C121",
   "status": "partial",
   "theorems": [
    "Verif.Rsql.C121_num_val",
    "Verif.Rsql.C121_compare",
    "Verif.Rsql.C121_arith",
    "Verif.Rsql.C121_condition",
    "Verif.Rsql.C121_never_wrong",
    "Verif.Rsql.C121_floats",
    "Verif.Rsql.C121_float_order",
    "Verif.Rsql.C121_strings",
    "Verif.Rsql.C121_string_order",
    "Verif.Rsql.C121_argument",
    "Verif.Rsql.C121_literal_counterexample",
    "Verif.Rsql.C121_float_literal_counterexample",
    "Verif.Rsql.C121_argument_counterexample"
   ],
   "note": "The parser of SQL texts is a dependency: the model starts at its syntax tree. False, proved: an integer literal that does not fit the type of the column, and any fractional literal against an integer column, is an error although the comparison has an answer; missing or boolean arguments panic."
  },
  {
   "property": "C122",
   "status": "partial",
   "theorems": [
    "Verif.Rsql.C122_rows",
    "Verif.Rsql.C122_row_stays",
    "Verif.Rsql.C122_next_answers",
    "Verif.Rsql.C122_end",
    "Verif.Rsql.C122_no_panic",
    "Verif.Rsql.C122_where",
    "Verif.Rsql.C122_errors",
    "Verif.Rsql.C122_condition",
    "Verif.Rsql.C122_after_end_counterexample",
    "Verif.Rsql.C122_leak_counterexample",
    "Verif.Rsql.C122_not_boolean_counterexample"
   ],
   "note": "All of it for queries read to their end. False, proved: a query closed before its end leaves its goroutine blocked for ever; Next after the end panics; a condition that is not boolean ends the process. Only the first select expression is used by the code."
  },
  {
   "property": "C123",
   "status": "partial",
   "theorems": [
    "Verif.Rsql.C123_files_partial",
    "Verif.Rsql.C123_open_partial",
    "Verif.Rsql.C123_close_partial",
    "Verif.Rsql.C123_moved_counterexample",
    "Verif.Rsql.C123_reopened_counterexample",
    "Verif.Rsql.C123_prepared_counterexample"
   ],
   "note": "Only for files opened under the name stored inside them, and without prepared statements. False otherwise, proved: a file that was renamed or lies in another directory is never closed; with two files that store the same name one can get a connection whose file is closed; closing after Prepare panics. Errors of closing a file are not modelled."
  },
  {
   "property": "C124",
   "status": "partial",
   "theorems": [
    "Verif.Lhef.C124_round_trip_partial",
    "Verif.Lhef.C124_fraction_counterexample",
    "Verif.Lhef.C124_nan_counterexample",
    "Verif.Lhef.C124_negative_counterexample",
    "Verif.Lhef.C124_empty_counterexample",
    "Verif.Lhef.C124_group_counterexample",
    "Verif.Lhef.C124_header_counterexample",
    "Verif.Lhef.C124_not_closed_counterexample"
   ],
   "note": "Complete for events that are no groups, with finite lifetimes and spins and with as many particles as they tell. The notations of floating-point numbers are parameters; encoding/xml is modelled for tags, attributes and text, fmt.Fscanf for the formats used. False, proved: lifetimes and spins are rounded to integers; a lifetime or spin that is NaN or infinite makes the file unreadable; closing without events writes a file that is refused; event groups and headers with an element init make the file unreadable; a negative NUP is written and panics when read."
  },
  {
   "property": "C125",
   "status": "partial",
   "theorems": [
    "Verif.Lhef.C125_events",
    "Verif.Lhef.C125_lengths",
    "Verif.Lhef.C125_panic",
    "Verif.Lhef.C125_trailing",
    "Verif.Lhef.C125_no_version_counterexample"
   ],
   "note": "Stated on the tokens of encoding/xml; events inside events are excluded. False, proved: a root element without attributes makes NewDecoder panic, and a negative NUP makes Decode panic."
  },
  {
   "property": "C126",
   "status": "partial",
   "theorems": [
    "Verif.Riofs.C126_get",
    "Verif.Riofs.C126_mkdir",
    "Verif.Riofs.C126_put",
    "Verif.Riofs.C126_refused",
    "Verif.Riofs.C126_object_counterexample",
    "Verif.Riofs.C126_leading_slash_counterexample",
    "Verif.Riofs.C126_double_slash_counterexample",
    "Verif.Riofs.C126_middle_cycle_counterexample",
    "Verif.Riofs.C126_mkdir_slash",
    "Verif.Riofs.C126_top_slash_counterexample",
    "Verif.Riofs.C126_mkdir_direct"
   ],
   "note": "Complete for paths whose names are not empty and hold no slash and no semicolon, on files built with Put and Mkdir. False, proved: Mkdir where there is an object, and Put below an object, panic; Put with a leading slash and no directory is refused; a doubled slash makes an unnamed directory and then fails; a cycle after a directory name on the way gives the directory instead of what is in it."
  },
  {
   "property": "C127",
   "status": "partial",
   "theorems": [
    "Verif.Riofs.C127_walk",
    "Verif.Riofs.C127_walk_error",
    "Verif.Riofs.C127_skip_object_counterexample"
   ],
   "note": "Complete but for one sentence of the documentation, which is false: SkipDir returned for an object does not skip the remaining keys of its directory."
  },
  {
   "property": "C128",
   "status": "partial",
   "theorems": [
    "Verif.Rcmd.C128_merge_partial",
    "Verif.Rcmd.C128_merge_iff",
    "Verif.Rcmd.C128_dropped_counterexample"
   ],
   "note": "Reading entries of a tree into the variables of another and ROOTMerge are parameters. C128_merge_iff says exactly when Merge succeeds: every object of the first file must be in the others and mergeable, and at the top of the file there may only be trees - any histogram or graph outside of a directory makes Merge fail (Put with a leading slash and no directory is refused). Two-dimensional histograms cannot be merged (panic). Objects only in later files, older cycles and objects that cannot be merged are left out silently."
  },
  {
   "property": "C129",
   "status": "proved",
   "theorems": [
    "Verif.Rcmd.C129_split",
    "Verif.Rcmd.C129_split_bad",
    "Verif.Rcmd.C129_split_none"
   ],
   "note": "For positive numbers of entries per file. With zero Split never returns, with a negative number it returns an error after having written all entries into a first file, with an output name shorter than five characters it panics (C129_split_bad). Reading and writing of the entries of a tree is a parameter assumed lossless."
  },
  {
   "property": "C13",
   "status": "partial",
   "theorems": [
    "Verif.Compress.C13_roundtrip_partial",
    "Verif.Compress.C13_no_panic_partial",
    "Verif.Compress.C13_lz4_overflow_counterexample"
   ],
   "note": "Any lossless codecs, any payload and setting; for LZ4 provided a compressed block saves the 8 checksum bytes, otherwise the block is cut silently or the call panics (proved)."
  },
  {
   "property": "C130",
   "status": "partial",
   "theorems": [
    "Verif.Rcmd.C130_copy_one",
    "Verif.Rcmd.C130_copy_partial",
    "Verif.Rcmd.C130_shared_directory_counterexample",
    "Verif.Rcmd.C130_title_counterexample",
    "Verif.Rcmd.C130_star_counterexample"
   ],
   "note": "Complete for arguments that have no selected names in common. False, proved: the titles of trees are lost (and ntuples become trees); files that have a directory in common cannot be copied together even if their objects have different names; the selection * is the expression /* that matches the file itself, which makes a directory . in a directory . . The parsing of the argument and the matching of regular expressions are not modelled."
  },
  {
   "property": "C131",
   "status": "partial",
   "theorems": [
    "Verif.Hbook.Yoda.C131_roundtrip_partial",
    "Verif.Hbook.Yoda.C131_exact",
    "Verif.Hbook.Yoda.C131_entries_counterexample",
    "Verif.Hbook.Yoda.C131_path_counterexample",
    "Verif.Hbook.Yoda.C131_newline_counterexample",
    "Verif.Hbook.Yoda.C131_lines"
   ],
   "note": "The notation of numbers and the YAML library are parameters: a number is read rounded to the digits written, annotations as written. Only texts of the current version; no annotation called Type, Path or Title, no newline in the name (both needed, proved). The numbers of entries are rounded to seven digits too, proved: 12345678 entries become 12345680."
  },
  {
   "property": "C132",
   "status": "partial",
   "theorems": [
    "Verif.Hbook.Yoda.C132_roundtrip_partial",
    "Verif.Hbook.Yoda.C132_lossy_counterexample",
    "Verif.Hbook.Yoda.C132_panic_counterexample",
    "Verif.Hbook.Yoda.C132_lines"
   ],
   "note": "As C131, and for bins that are still not empty in the digits written: otherwise, and without bins, the reader panics (proved). The mixed sums and the weights kept for the second axis are not written: they are zero afterwards, proved."
  },
  {
   "property": "C133",
   "status": "partial",
   "theorems": [
    "Verif.Hbook.Yoda.C133_roundtrip_partial",
    "Verif.Hbook.Yoda.C133_edges_counterexample",
    "Verif.Hbook.Yoda.C133_outflow_counterexample",
    "Verif.Hbook.Yoda.C133_lines"
   ],
   "note": "As C131, for bins that differ in the digits written. False, proved: the edges used by fills are evenly spaced after reading, whatever the bins, so that later fills go to wrong bins; the outflows are lost."
  },
  {
   "property": "C134",
   "status": "partial",
   "theorems": [
    "Verif.Hbook.Yoda.C134_roundtrip_partial",
    "Verif.Hbook.Yoda.C134_exact",
    "Verif.Hbook.Yoda.C134_order_counterexample",
    "Verif.Hbook.Yoda.C134_garbage_counterexample",
    "Verif.Hbook.Yoda.C134_less"
   ],
   "note": "As C131; sort.Sort is a parameter that permutes, and sorts points without NaN. False, proved: marshalling reorders the points of the scatter itself; lines that are no points are read as points with zeros instead of being errors."
  },
  {
   "property": "C135",
   "status": "partial",
   "theorems": [
    "Verif.Hbook.Yoda.C135_archive",
    "Verif.Hbook.Yoda.C135_panic_counterexample",
    "Verif.Hbook.Yoda.C135_lost_counterexample"
   ],
   "note": "Complete for what Write writes, when the YAML library writes no line that looks like the beginning or end of a block. Broken archives: the end of a block without its beginning is a panic, and an unsupported block whose end is missing takes the next object with it silently (proved)."
  },
  {
   "property": "C136",
   "status": "partial",
   "theorems": [
    "Verif.Lcio.C136_event_partial",
    "Verif.Lcio.C136_children",
    "Verif.Lcio.C136_vectors_counterexample",
    "Verif.Lcio.C136_references_counterexample"
   ],
   "note": "For all types of collections but vectors of floats, integers and strings and references, with lengths below 2^31 and, for clusters, as many weights as hits. False for those left out, proved: vectors are written twice and cannot be read even when empty, references make WriteEvent panic. What a field is after reading is the specification keep in Verif/Lcio/RecordsProps.lean; the end point of a particle and the weight of a relation are only stored if their bits say so, and momenta and masses of particles and covariances of tracker hits are rounded to 32 bits. The compression is a parameter that is lossless. One container under two names and the index records are not modelled; relocation does no type check in the model."
  },
  {
   "property": "C137",
   "status": "partial",
   "theorems": [
    "Verif.Lcio.C137_file_partial",
    "Verif.Lcio.C137_write"
   ],
   "note": "For the events of C136. C137_write: writing succeeds with fewer than 2^32 calls on the encoder in a record; that records fit in the sizes of the format is a hypothesis of C137_file_partial."
  },
  {
   "property": "C138",
   "status": "partial",
   "theorems": [
    "Verif.HepMC.Root.C138_event",
    "Verif.HepMC.Root.C138_columns",
    "Verif.HepMC.Root.Ex.C138_losses_counterexample"
   ],
   "note": "For events with parton data, integers of 32 bits, and no cross section or heavy-ion data of zeros only: otherwise it is false, proved: those are lost, larger integers wrap around, and the counters for new barcodes are not kept. Columns of one length are rows in the model; writing and reading the tree is not part of it."
  },
  {
   "property": "C139",
   "status": "partial",
   "theorems": [
    "Verif.HepMC.Root.C139_events",
    "Verif.HepMC.Root.C139_no_pdf_panics_counterexample",
    "Verif.HepMC.Root.C139_after_end_counterexample",
    "Verif.HepMC.Root.C139_event_pointer_counterexample"
   ],
   "note": "The tree gives the rows that were written (a parameter of the model). Proved to fail: an event without parton data makes the writer panic, a call after io.EOF gives an empty event without an error, and the vertices of an event read point to another event variable than the one given to Read. The goroutine of the reader is modelled as making an event when it is asked for."
  },
  {
   "property": "C14",
   "status": "partial",
   "theorems": [
    "Verif.Riofs.C14_load_partial",
    "Verif.Riofs.C14_equal_length_counterexample",
    "Verif.Riofs.C14_unwritten_counterexample"
   ],
   "note": "Proved unless compression saves exactly the 9 header bytes; that case, and loading before the key was written, return the compressed bytes (proved)."
  },
  {
   "property": "C140",
   "status": "partial",
   "theorems": [
    "Verif.Lhef2HepMC.C140_convert",
    "Verif.Lhef2HepMC.C140_file_partial",
    "Verif.Lhef2HepMC.C140_written_partial",
    "Verif.Lhef2HepMC.C140_other_weights_refused",
    "Verif.Lhef2HepMC.C140_no_events_counterexample",
    "Verif.Lhef2HepMC.C140_one_process_panics_counterexample",
    "Verif.Lhef2HepMC.C140_losses_counterexample",
    "Verif.Lhef2HepMC.C140_beams_counterexample"
   ],
   "note": "For IDWTUP 3, -3 with two processes or more and 4, -4; lines of the output shorter than 64 kB. Proved to fail: a single process with IDWTUP 3 makes the program panic, other values of IDWTUP are refused, a file without events gives an empty output, both beams fly in the same direction, and scale, couplings, mothers, colours, lifetimes and spins are lost."
  },
  {
   "property": "C141",
   "status": "partial",
   "theorems": [
    "Verif.Lhef2HepMC.C141_running_mean",
    "Verif.Lhef2HepMC.C140_file_partial",
    "Verif.Lhef2HepMC.C141_error_counterexample"
   ],
   "note": "The mean for IDWTUP 4 and -4, in exact arithmetic; that every event carries this cross section is part of C140_file_partial. For 3 and -3 the error written is proved to be the cross section of the second process."
  },
  {
   "property": "C142",
   "status": "partial",
   "theorems": [
    "Verif.Robj.C142_roundtrip_partial",
    "Verif.Robj.C142_write_ends",
    "Verif.Robj.C142_array_last",
    "Verif.Robj.C142_refarray_last",
    "Verif.Robj.C142_map_last",
    "Verif.Robj.C142_map_keys",
    "Verif.Robj.C142_map_same",
    "Verif.Robj.contracts_hold",
    "Verif.Robj.C142_basic_size",
    "Verif.Robj.C142_stl_kind",
    "Verif.Robj.C142_nil_element_counterexample",
    "Verif.Robj.C142_nil_key_counterexample",
    "Verif.Robj.C142_nul_counterexample",
    "Verif.Robj.C142_id_counterexample"
   ],
   "note": "For acyclic objects and records below 1 GiB, strings that do not begin with a NUL, lists without nil elements, slices of the lengths the members announce, titles of streamer elements that are no invalid ranges (C147). Not modelled: TBasket, TNtuple, TClonesArray, TEfficiency, TF1Parameters and the other functions, LeafF16 and LeafD32, user classes."
  },
  {
   "property": "C143",
   "status": "partial",
   "theorems": [
    "Verif.Robj.C143_stable",
    "Verif.Robj.C143_targets",
    "Verif.Robj.C143_family",
    "Verif.Robj.C143_again_partial"
   ],
   "note": "Same limits as C142."
  },
  {
   "property": "C144",
   "status": "partial",
   "theorems": [
    "Verif.Robj.C144_newer",
    "Verif.Robj.C144_attPad",
    "Verif.Robj.C144_axis",
    "Verif.Robj.C144_h1",
    "Verif.Robj.C144_graph",
    "Verif.Robj.C144_graphAsymmErrors",
    "Verif.Robj.C144_formula",
    "Verif.Robj.C144_objArray",
    "Verif.Robj.C144_map",
    "Verif.Robj.C144_vector2",
    "Verif.Robj.C144_vector3",
    "Verif.Robj.C144_streamerElement",
    "Verif.Robj.C144_streamerBase",
    "Verif.Robj.C144_branch",
    "Verif.Robj.C144_branchElement",
    "Verif.Robj.C144_tree",
    "Verif.Robj.C144_old_list_counterexample"
   ],
   "note": "Not covered: TBranch before version 10, TTree before version 6, TGraphAsymmErrors and TStreamerElement version 1, the errors of single-precision graphs. Lists of versions 1 to 3 are refused."
  },
  {
   "property": "C145",
   "status": "partial",
   "theorems": [
    "Verif.RTree.Leaf.C145_values_partial",
    "Verif.RTree.Leaf.C145_file_partial",
    "Verif.RTree.Leaf.C145_write",
    "Verif.RTree.Leaf.C145_size",
    "Verif.RTree.Leaf.C145_unsigned_count_counterexample",
    "Verif.RTree.Leaf.C145_order_counterexample",
    "Verif.RTree.Leaf.C145_one_array_counterexample",
    "Verif.RTree.Leaf.C145_strings_counterexample",
    "Verif.RTree.Leaf.C145_nul_counterexample"
   ],
   "note": "For arrays of two or more elements which are not strings, counts below half the range of their type and named before their slices, strings that do not begin with a NUL. Not modelled: Float16 and Double32 leaves, std::vector, structs, counted arrays."
  },
  {
   "property": "C146",
   "status": "partial",
   "theorems": [
    "Verif.RBytes.Pack.C146_range",
    "Verif.RBytes.Pack.C146_range_stable",
    "Verif.RBytes.Pack.C146_range_mono",
    "Verif.RBytes.Pack.C146_bits_partial",
    "Verif.RBytes.Pack.C146_error_partial",
    "Verif.RBytes.Pack.C146_odd_counterexample",
    "Verif.RBytes.Pack.C146_carry_counterexample",
    "Verif.RBytes.Pack.C146_bits_stable"
   ],
   "note": "With a range: exact arithmetic in an ordered field. With bits: for mantissas whose rounding is even and does not carry; for an odd one the code stores the largest mantissa (the test is written man&1<<nbits, which Go reads as (man&1)<<nbits), proved as a counterexample."
  },
  {
   "property": "C147",
   "status": "partial",
   "theorems": [
    "Verif.Rdict.Range.C147_range",
    "Verif.Rdict.Range.C147_range32",
    "Verif.Rdict.Range.C147_precision",
    "Verif.Rdict.Range.C147_none",
    "Verif.Rdict.Range.C147_text",
    "Verif.Rdict.Range.C147_bits",
    "Verif.Rdict.Range.C147_pi",
    "Verif.Rdict.Range.C147_case",
    "Verif.Rdict.Range.C147_pi_counterexample",
    "Verif.Rdict.Range.C147_title_counterexample",
    "Verif.Rdict.Range.C147_bracket_counterexample"
   ],
   "note": "ParseFloat and pi are parameters, arithmetic is exact. Some comments make reading panic, and 3*pi is taken for pi: counterexamples."
  },
  {
   "property": "C148",
   "status": "partial",
   "theorems": [
    "Verif.Fads.C148_grid",
    "Verif.Fads.C148_order",
    "Verif.Fads.C148_index",
    "Verif.Fads.C148_found_partial",
    "Verif.Fads.C148_centre",
    "Verif.Fads.C148_low_phi_counterexample",
    "Verif.Fads.C148_low_eta_counterexample",
    "Verif.Fads.C148_last_counterexample"
   ],
   "note": "Points below the first edge in phi, and points on the first edge in eta, are reported as found, with an index of zero for which there is no centre; indices one behind the last cell panic: counterexamples. Not-a-number is not represented."
  },
  {
   "property": "C149",
   "status": "partial",
   "theorems": [
    "Verif.Fads.C149_towers_partial",
    "Verif.Fads.C149_energy_partial",
    "Verif.Fads.C149_photons",
    "Verif.Fads.C149_fractions",
    "Verif.Fads.C149_low_phi_counterexample",
    "Verif.Fads.C149_resolution_counterexample"
   ],
   "note": "For particles and tracks of the grid that are not on the edges of C148, up to 2^15 edges in eta, 2^16 in phi and 2^24 particles, energies before smearing and in exact arithmetic. Particles below the grid in phi are put into a tower that does not contain them, and the logarithm of the smeared energy has the random number added without the width: a resolution of zero smears: counterexamples. The energy-flow collections, which the code leaves empty, and the random position in a cell are not represented."
  },
  {
   "property": "C15",
   "status": "partial",
   "theorems": [
    "Verif.Riofs.C15_segment_roundtrip_partial",
    "Verif.Riofs.C15_big_file_counterexample"
   ],
   "note": "Proved when offsets fit the selected layout; the last segment of a file above 2^31 bytes is shown not to round trip."
  },
  {
   "property": "C150",
   "status": "partial",
   "theorems": [
    "Verif.Fads.C150_overlaps",
    "Verif.Fads.C150_clone_counterexample",
    "Verif.Fads.C150_unique_counterexample",
    "Verif.Fads.C150_first_counterexample",
    "Verif.Fads.C150_merge",
    "Verif.Fads.C150_efficiency"
   ],
   "note": "The finder of unique objects keeps exactly the objects that are not unique, and nothing of the first collection; a clone does not overlap its original: counterexamples. Sums are in exact arithmetic."
  },
  {
   "property": "C151",
   "status": "partial",
   "theorems": [
    "Verif.Fads.C151_isolation_partial",
    "Verif.Fads.C151_tracks_counterexample",
    "Verif.Fads.C151_panic_counterexample",
    "Verif.Fads.C151_alone_counterexample"
   ],
   "note": "True if candidates and tracks are the same collection. Otherwise the output holds tracks and not candidates, more candidates than tracks panic, and without tracks every candidate is dropped: counterexamples."
  },
  {
   "property": "C152",
   "status": "partial",
   "theorems": [
    "Verif.Fads.C152_btag_counterexample",
    "Verif.Fads.C152_tau_partial",
    "Verif.Fads.C152_last_counterexample"
   ],
   "note": "No jet is ever given a b tag, since the jets of the input are put, and the last daughter of a tau is left out of its visible momentum: counterexamples. The tau tags are proved for taus whose last daughter is a neutrino."
  },
  {
   "property": "C153",
   "status": "partial",
   "theorems": [
    "Verif.RTree.Struct.C153_write",
    "Verif.RTree.Struct.C153_agree_partial",
    "Verif.RTree.Struct.C153_empty_tag_counterexample",
    "Verif.RTree.Struct.C153_dimensions_counterexample",
    "Verif.RTree.Struct.C153_tree_partial",
    "Verif.RTree.Struct.C153_leaves_counterexample"
   ],
   "note": "Writing is settled for all structs. A field with an empty tag is written under its own name but read from a branch without a name; an array of four or more dimensions with a tag without dimensions is written but cannot be read; copying a tree gives the leaves of a branch with several all the name of the branch: counterexamples. Agreement is proved for all other tags, and trees with one leaf for each branch."
  },
  {
   "property": "C154",
   "status": "partial",
   "theorems": [
    "Verif.Hplot.C154_band",
    "Verif.Hplot.C154_scatter",
    "Verif.Hplot.C154_scatter_band_counterexample",
    "Verif.Hplot.C154_errors",
    "Verif.Hplot.C154_histogram",
    "Verif.Hplot.C154_log_partial",
    "Verif.Hplot.C154_log_bars_counterexample",
    "Verif.Hplot.C154_stack",
    "Verif.Hplot.C154_stack_log_partial",
    "Verif.Hplot.C154_stack_bars_counterexample",
    "Verif.Hplot.C154_negative_counterexample",
    "Verif.Hplot.C154_stack_band_counterexample"
   ],
   "note": "On linear axes it holds for histograms and for stacks without error bars. The range of a scatter plot leaves out its band, that of a stack its error bars; on a logarithmic axis error bars of histograms are cut off, negative weights give a range below zero or above what is shown, and the band of a stack may be cut: counterexamples. Exact arithmetic; the line at zero, where outlines end, is not counted."
  },
  {
   "property": "C155",
   "status": "partial",
   "theorems": [
    "Verif.Csv.C155_import",
    "Verif.Csv.C155_names",
    "Verif.Csv.C155_empty",
    "Verif.Csv.C155_create_counterexample",
    "Verif.Csv.C155_written_partial",
    "Verif.Csv.C155_number_counterexample"
   ],
   "note": "The import is settled for all files with rows of data. Written tables come back if the first value of every column looks like its type; a column of numbers that begins with a number without fraction does not. Creating a file that exists fails with the end of the file. Fewer names than columns panic. The database engine is assumed to keep what is inserted."
  },
  {
   "property": "C156",
   "status": "partial",
   "theorems": [
    "Verif.Csv.C156_open_partial",
    "Verif.Csv.C156_network_counterexample",
    "Verif.Csv.C156_config_counterexample",
    "Verif.Csv.C156_race_counterexample"
   ],
   "note": "Proved for local files opened and closed one after the other. A file from the network stays with the driver after it is closed, so that opening it again gives a closed connection; the configuration is ignored if somebody has the file open; a user who opens while another closes gets a closed connection, and so does everybody afterwards: counterexamples."
  },
  {
   "property": "C157",
   "status": "partial",
   "theorems": [
    "Verif.Job.C157_last",
    "Verif.Job.C157_order",
    "Verif.Job.C157_replay_partial",
    "Verif.Job.C157_texts",
    "Verif.Job.C157_level_counterexample",
    "Verif.Job.C157_bare_counterexample",
    "Verif.Job.C157_app_counterexample",
    "Verif.Job.C157_twice_counterexample",
    "Verif.Job.C157_msglevel_counterexample",
    "Verif.Job.C157_package"
   ],
   "note": "Values and order are settled for all configurations. The program is the same job when every component has properties and those of the application are given to New. A component created with no property is not recorded, a property of the application set later makes the program panic, the level of the messages is written as fwk.Level(INFO), which does not compile, and an encoder used twice writes a program which does not compile: counterexamples."
  },
  {
   "property": "C158",
   "status": "partial",
   "theorems": [
    "Verif.GraphMerge.C158_points_partial",
    "Verif.GraphMerge.C158_kinds",
    "Verif.GraphMerge.C158_range",
    "Verif.GraphMerge.C158_scatter",
    "Verif.GraphMerge.C158_multi_error",
    "Verif.GraphMerge.C158_multi_counterexample",
    "Verif.GraphMerge.C158_range_counterexample",
    "Verif.GraphMerge.C158_nil_counterexample"
   ],
   "note": "Graphs with several errors along y are never merged with each other, and take plain graphs without errors for the new points, after which reading their errors panics. Ranges which mean unset do not cover the points after a merge. A scatter plot without graph panics."
  },
  {
   "property": "C159",
   "status": "partial",
   "theorems": [
    "Verif.Rnpy.C159_rows_partial",
    "Verif.Rnpy.C159_fortran",
    "Verif.Rnpy.C159_dims",
    "Verif.Rnpy.C159_fortran_counterexample"
   ],
   "note": "Settled for arrays in the order of C. An array in the order of Fortran becomes its transposed: one row for each value of the last index. No dimension and more than five panic."
  },
  {
   "property": "C16",
   "status": "partial",
   "theorems": [
    "Verif.Riofs.C16_file_header_roundtrip_partial",
    "Verif.Riofs.C16_uuid_counterexample"
   ],
   "note": "All fields but the identifier round trip in both layouts; the identifier is shifted by two bytes (proved for every header)."
  },
  {
   "property": "C160",
   "status": "partial",
   "theorems": [
    "Verif.Rarrow.C160_record",
    "Verif.Rarrow.C160_whole",
    "Verif.Rarrow.C160_refused",
    "Verif.Rarrow.C160_slice_partial",
    "Verif.Rarrow.C160_records_partial",
    "Verif.Rarrow.C160_default",
    "Verif.Rarrow.C160_all",
    "Verif.Rarrow.C160_slice_counterexample",
    "Verif.Rarrow.C160_end_counterexample",
    "Verif.Rarrow.C160_table_counterexample",
    "Verif.Rarrow.C160_chunk_counterexample"
   ],
   "note": "Slices are checked against the tree and not against the record. A reader takes the end 0 for all the entries, a record does not. Tables do not look at the start and the end. A chunk near the largest int64 gives entries several times."
  },
  {
   "property": "C161",
   "status": "partial",
   "theorems": [
    "Verif.Rarrow.C161_column",
    "Verif.Rarrow.C161_field",
    "Verif.Rarrow.C161_record_partial",
    "Verif.Rarrow.C161_leaves_counterexample",
    "Verif.Rarrow.C161_bytes_counterexample"
   ],
   "note": "Settled for trees whose branches have one leaf each. Branches of several leaves and slices of bytes panic: counterexamples."
  },
  {
   "property": "C162",
   "status": "partial",
   "theorems": [
    "Verif.Rarrow.C162_write_partial",
    "Verif.Rarrow.C162_schema",
    "Verif.Rarrow.C162_tree_partial",
    "Verif.Rarrow.C162_null_counterexample",
    "Verif.Rarrow.C162_nested_counterexample",
    "Verif.Rarrow.C162_names_counterexample"
   ],
   "note": "Settled for flat types without null. Nulls are lost, lists of lists panic, and the record of a flat tree gives a tree with two branches of the same name."
  },
  {
   "property": "C163",
   "status": "partial",
   "theorems": [
    "Verif.Brio.C163_roundtrip_partial",
    "Verif.Brio.C163_written",
    "Verif.Brio.C163_layout",
    "Verif.Brio.C163_refused",
    "Verif.Brio.C163_unused",
    "Verif.Brio.C163_bytes_counterexample",
    "Verif.Brio.C163_pointer_counterexample",
    "Verif.Brio.C163_bool_counterexample",
    "Verif.Brio.C163_array_counterexample",
    "Verif.Brio.C163_matrix_counterexample"
   ],
   "note": "Settled for the structs whose methods compile and that have no byte slice, pointer to an object with methods, array of arrays, or boolean or byte array inside a slice of structs: these are read back wrong, or panic. With booleans, complex64, byte arrays, arrays or slices of numbers, of pointers or of slices, or with fields of one byte only, the methods do not compile."
  },
  {
   "property": "C164",
   "status": "partial",
   "theorems": [
    "Verif.Rcmd.Diff.C164_found_partial",
    "Verif.Rcmd.Diff.C164_keys_partial",
    "Verif.Rcmd.Diff.C164_alike",
    "Verif.Rcmd.Diff.C164_ends",
    "Verif.Rcmd.Diff.C164_extra_counterexample",
    "Verif.Rcmd.Diff.C164_tree_counterexample",
    "Verif.Rcmd.Diff.C164_panic_counterexample",
    "Verif.Rcmd.Diff.C164_empty_counterexample",
    "Verif.Rcmd.Diff.C164_cycles_counterexample",
    "Verif.Rcmd.Diff.C164_nan_counterexample"
   ],
   "note": "Settled but for what the comparison leaves out: keys that only the second file has at its top, the names and the number of the variables of trees (fewer in the second tree panic). It gives an error for two empty files, for directories that differ in old cycles only, and for NaN."
  },
  {
   "property": "C165",
   "status": "partial",
   "theorems": [
    "Verif.Rcmd.Lockstep.C165_step",
    "Verif.Rcmd.Lockstep.C165_outcome",
    "Verif.Rcmd.Lockstep.C165_progress",
    "Verif.Rcmd.Lockstep.C165_ends",
    "Verif.Rcmd.Lockstep.C165_clean",
    "Verif.Rcmd.Lockstep.C165_leak_counterexample",
    "Verif.Rcmd.Lockstep.C165_empty_counterexample"
   ],
   "note": "Settled but for the last sentence, which is false after an error: the goroutine of the other tree then waits for ever. Trees with the same number of variables."
  },
  {
   "property": "C166",
   "status": "partial",
   "theorems": [
    "Verif.RTree.Formula.C166_value_partial",
    "Verif.RTree.Formula.C166_accepted",
    "Verif.RTree.Formula.C166_given",
    "Verif.RTree.Formula.C166_stale_counterexample",
    "Verif.RTree.Formula.C166_variadic_counterexample"
   ],
   "note": "Settled for functions without ..., as long as no request failed since the last Reset: after a failed request its branches count as loaded but are not read, and later formulas see zero values. Leaf counts and fields of structs are left out."
  },
  {
   "property": "C167",
   "status": "partial",
   "theorems": [
    "Verif.Fwk.Streamer.C167_events_partial",
    "Verif.Fwk.Streamer.C167_each_once",
    "Verif.Fwk.Streamer.C167_refused",
    "Verif.Fwk.Streamer.C167_cut_counterexample",
    "Verif.Fwk.Streamer.C167_mixed_counterexample",
    "Verif.Fwk.Streamer.C167_panic_counterexample",
    "Verif.Fwk.Streamer.C167_incomplete_counterexample",
    "Verif.Fwk.Streamer.C167_lost_counterexample",
    "Verif.Fwk.Streamer.C167_noports_counterexample"
   ],
   "note": "Settled for closed files of complete events and at least one input port. Read ignores errors of the scanner other than io.EOF: a cut file repeats its last event for ever, mixes two events or panics. Part of an event that could not be written stays in the file. Without input ports there is no end. Only the first input file is read by the code."
  },
  {
   "property": "C168",
   "status": "partial",
   "theorems": [
    "Verif.Fwk.Hstream.C168_saved_partial",
    "Verif.Fwk.Hstream.C168_absent_counterexample",
    "Verif.Fwk.Hstream.C168_twice_counterexample"
   ],
   "note": "Settled for different names that are in the file. For a name that is not there, booking gives an empty histogram without an error; after a name used twice nothing more is saved."
  },
  {
   "property": "C169",
   "status": "partial",
   "theorems": [
    "Verif.Xrootd.Copy.C169_into_partial",
    "Verif.Xrootd.Copy.C169_all_partial",
    "Verif.Xrootd.Copy.C169_new",
    "Verif.Xrootd.Copy.C169_file",
    "Verif.Xrootd.Copy.C169_refused",
    "Verif.Xrootd.Copy.C169_dash_counterexample",
    "Verif.Xrootd.Copy.C169_onto_counterexample",
    "Verif.Xrootd.Copy.C169_several_counterexample",
    "Verif.Xrootd.Copy.C169_norec_counterexample",
    "Verif.Xrootd.Copy.C169_stdout_counterexample"
   ],
   "note": "Settled for destinations where the names are free. Fails for a file called - in the current directory, for a directory copied onto a file (nothing happens, no error), for several files to a new name (only the last one is kept), without -r for a new name, and for two files to the standard output."
  },
  {
   "property": "C17",
   "status": "partial",
   "theorems": [
    "Verif.Compress.C17_settings_roundtrip_partial",
    "Verif.Compress.C17_default_level",
    "Verif.Compress.C17_zstd_best_counterexample",
    "Verif.Compress.C17_negative_level_counterexample"
   ],
   "note": "All algorithms and non-negative levels except zstd level 9; negative levels below -1 are decoded as no compression (proved)."
  },
  {
   "property": "C170",
   "status": "partial",
   "theorems": [
    "Verif.Hplot.Vgop.C170_replay_partial",
    "Verif.Hplot.Vgop.C170_json_partial",
    "Verif.Hplot.Vgop.C170_color",
    "Verif.Hplot.Vgop.C170_writes",
    "Verif.Hplot.Vgop.C170_stable_partial",
    "Verif.Hplot.Vgop.C170_transparent_counterexample",
    "Verif.Hplot.Vgop.C170_grey_counterexample",
    "Verif.Hplot.Vgop.C170_face_counterexample",
    "Verif.Hplot.Vgop.C170_outlines_counterexample",
    "Verif.Hplot.Vgop.C170_zero_counterexample"
   ],
   "note": "Settled for colours of eight bits, where equal fonts have equal outlines, and for the calls without the outlines of the fonts after JSON. Of a colour with sixteen bits the lower eight are kept, so colours that are half transparent come back wrong; the outlines of fonts are not restored; two faces with the same font are not kept apart; reading into a JSON made without NewJSON panics."
  },
  {
   "property": "C171",
   "status": "partial",
   "theorems": [
    "Verif.Hplot.Htex.C171_limit",
    "Verif.Hplot.Htex.C171_wait",
    "Verif.Hplot.Htex.C171_once",
    "Verif.Hplot.Htex.C171_ends",
    "Verif.Hplot.Htex.C171_reaches",
    "Verif.Hplot.Htex.C171_pdf",
    "Verif.Hplot.Htex.C171_failed",
    "Verif.Hplot.Htex.C171_sticky_counterexample",
    "Verif.Hplot.Htex.C171_emptied_counterexample",
    "Verif.Hplot.Htex.C171_short_counterexample"
   ],
   "note": "Settled for all schedules. A handler that is used again after an error gives this error for ever; if the command makes no PDF of the expected name, an older PDF is emptied; a name of less than four bytes panics."
  },
  {
   "property": "C172",
   "status": "partial",
   "theorems": [
    "Verif.Fads.Propagate.C172_straight_partial",
    "Verif.Fads.Propagate.C172_surface_partial",
    "Verif.Fads.Propagate.C172_outside",
    "Verif.Fads.Propagate.C172_helix_partial",
    "Verif.Fads.Propagate.C172_helix_end_partial",
    "Verif.Fads.Propagate.C172_lists_partial",
    "Verif.Fads.Propagate.C172_helix_counterexample",
    "Verif.Fads.Propagate.C172_antiparticle_counterexample",
    "Verif.Fads.Propagate.C172_end_counterexample"
   ],
   "note": "Straight lines are settled, but for particles exactly on the far end that move inwards, which stay. Helices: the point is on the helix, and at an end, on the sides, or at the distance that a wrong sign of a sine gives; the last does happen, inside the detector. Positrons and antimuons go into the list of charged hadrons. Arithmetic is exact."
  },
  {
   "property": "C173",
   "status": "partial",
   "theorems": [
    "Verif.Rdict.Streamers.C173_exact",
    "Verif.Rdict.Streamers.C173_latest",
    "Verif.Rdict.Streamers.C173_order",
    "Verif.Rdict.Streamers.C173_values",
    "Verif.Rdict.Streamers.C173_goname",
    "Verif.Rdict.Streamers.C173_put",
    "Verif.Rdict.Streamers.C173_deps",
    "Verif.Rdict.Streamers.C173_once",
    "Verif.Rdict.Streamers.C173_cxx_partial",
    "Verif.Rdict.Streamers.C173_register_partial",
    "Verif.Rdict.Streamers.C173_order_counterexample",
    "Verif.Rdict.Streamers.C173_goname_counterexample",
    "Verif.Rdict.Streamers.C173_cxx_counterexample",
    "Verif.Rdict.Streamers.C173_register_counterexample",
    "Verif.Rdict.Streamers.C173_version_counterexample"
   ],
   "note": "The registry, Put and the dependencies are settled. A file ignores the version: it gives the first streamer of the name. RegisterStreamer does not add to the file what the registry has. Packages whose paths differ in dots, dashes and underscores share C++ names. A title that names a class can make the answer depend on the order of the map. How the elements of a streamer are visited is a parameter."
  },
  {
   "property": "C174",
   "status": "partial",
   "theorems": [
    "Verif.Rcmd.SplitArg.C174_local",
    "Verif.Rcmd.SplitArg.C174_remote_partial",
    "Verif.Rcmd.SplitArg.C174_rooted",
    "Verif.Rcmd.SplitArg.C174_anchor",
    "Verif.Rcmd.SplitArg.C174_errors",
    "Verif.Rcmd.SplitArg.C174_port_counterexample",
    "Verif.Rcmd.SplitArg.C174_port_selection_counterexample"
   ],
   "note": "The port of a server is taken for a selection, and with a selection after it the argument is refused; all else is settled."
  },
  {
   "property": "C175",
   "status": "proved",
   "theorems": [
    "Verif.RTree.ChainOf.C175_iff",
    "Verif.RTree.ChainOf.C175_ok",
    "Verif.RTree.ChainOf.C175_error",
    "Verif.RTree.ChainOf.C175_first",
    "Verif.RTree.ChainOf.C175_close"
   ],
   "note": "Files are events of opening and closing; the chain itself is modelled elsewhere."
  },
  {
   "property": "C176",
   "status": "partial",
   "theorems": [
    "Verif.Robj.Clones.C176_roundtrip",
    "Verif.Robj.Clones.C176_kept",
    "Verif.Robj.Clones.C176_set_partial",
    "Verif.Robj.Clones.C176_empty_counterexample",
    "Verif.Robj.Clones.C176_mixed_counterexample",
    "Verif.Robj.Clones.C176_bit_counterexample",
    "Verif.Robj.Clones.C176_damaged_counterexample"
   ],
   "note": "A new array cannot be set to no elements; elements of other classes are written and come back as of the first; an error in writing leaves a bit changed; a damaged class name panics. The round trip is complete for arrays of one class."
  },
  {
   "property": "C177",
   "status": "partial",
   "theorems": [
    "Verif.Fads.Smear.C177_scale",
    "Verif.Fads.Smear.C177_energy_partial",
    "Verif.Fads.Smear.C177_momentum_partial",
    "Verif.Fads.Smear.C177_massless_partial",
    "Verif.Fads.Smear.C177_perfect_energy_counterexample",
    "Verif.Fads.Smear.C177_perfect_momentum_counterexample",
    "Verif.Fads.Smear.C177_put_counterexample"
   ],
   "note": "Both smearing tasks make candidates massless: with a perfect resolution a heavy particle gets another momentum or another energy. An error of storing the output is lost. Exact arithmetic; particles along the beam, with infinite pseudo-rapidity, are left out."
  },
  {
   "property": "C178",
   "status": "partial",
   "theorems": [
    "Verif.Fads.McRead.C178_all",
    "Verif.Fads.McRead.C178_stable",
    "Verif.Fads.McRead.C178_partons",
    "Verif.Fads.McRead.C178_fields",
    "Verif.Fads.McRead.C178_charge_partial",
    "Verif.Fads.McRead.C178_order",
    "Verif.Fads.McRead.C178_quark_counterexample",
    "Verif.Fads.McRead.C178_unknown_counterexample"
   ],
   "note": "The charge is made an integer: quarks get charge 0. Particles of the final state that are not in the table, or have a width, are in neither list. All else is settled; codes and states within 32 bits."
  },
  {
   "property": "C179",
   "status": "partial",
   "theorems": [
    "Verif.HepPDT.Read.C179_read",
    "Verif.HepPDT.Read.C179_lookup",
    "Verif.HepPDT.Read.C179_malformed",
    "Verif.HepPDT.Read.C179_reader_counterexample",
    "Verif.HepPDT.Read.C179_tab_counterexample",
    "Verif.HepPDT.Read.C179_qball_counterexample",
    "Verif.HepPDT.Read.C179_repeated_counterexample"
   ],
   "note": "If the reader fails the table is cut short without an error; tabs do not separate elements; the charge of a Q-ball is taken in thirds; if a code is repeated, the earlier name finds the later particle. All else is settled."
  },
  {
   "property": "C18",
   "status": "partial",
   "theorems": [
    "Verif.RTree.C18_read",
    "Verif.RTree.C18_values",
    "Verif.RTree.C18_tables",
    "Verif.RTree.C18_extents",
    "Verif.RTree.C18_write_partial",
    "Verif.RTree.C18_long_string_counterexample",
    "Verif.RTree.C18_flush_counterexample",
    "Verif.RTree.C18_empty_basket_counterexample"
   ],
   "note": "All rows, basket sizes, compressors, file positions and ranges; the leaf codecs are parameters. Writing a string longer than 1001 bytes before a thousand others panics, as does writing after Flush (proved)."
  },
  {
   "property": "C180",
   "status": "partial",
   "theorems": [
    "Verif.Fads.JetCand.C180_candidates",
    "Verif.Fads.JetCand.C180_widths_partial",
    "Verif.Fads.JetCand.C180_first",
    "Verif.Fads.JetCand.C180_widths_counterexample"
   ],
   "note": "The widths are not set back between jets: those of a jet are the largest over it and all jets before it. The rest is settled, with exact arithmetic; clustering is C06 and following."
  },
  {
   "property": "C181",
   "status": "partial",
   "theorems": [
    "Verif.Xrootd.RemoveAll.C181_first",
    "Verif.Xrootd.RemoveAll.C181_removed",
    "Verif.Xrootd.RemoveAll.C181_all",
    "Verif.Xrootd.RemoveAll.C181_below",
    "Verif.Xrootd.RemoveAll.C181_everything_counterexample",
    "Verif.Xrootd.RemoveAll.C181_missing_counterexample"
   ],
   "note": "Contrary to its documentation it stops at the first failure, leaving what it could have removed, and fails if the path does not exist. What it removes, and its error, are settled for all trees and failures."
  },
  {
   "property": "C182",
   "status": "partial",
   "theorems": [
    "Verif.Rsrv.HexColor.C182_roundtrip",
    "Verif.Rsrv.HexColor.C182_short",
    "Verif.Rsrv.HexColor.C182_invalid",
    "Verif.Rsrv.HexColor.C182_model",
    "Verif.Rsrv.HexColor.C182_premultiplied_counterexample"
   ],
   "note": "The values are not premultiplied if the notation is not: a transparent white has red greater than alpha. The rest is proved for all colours and texts."
  },
  {
   "property": "C183",
   "status": "partial",
   "theorems": [
    "Verif.HepMC.DeleteEvt.C183_free",
    "Verif.HepMC.DeleteEvt.C183_others",
    "Verif.HepMC.DeleteEvt.C183_reached",
    "Verif.HepMC.DeleteEvt.C183_barcode_counterexample"
   ],
   "note": "Proved for events that store particles and vertices under their barcodes. The barcode is an exported field: if it was changed, an entry may be removed before it is reached and keeps its links (counterexample)."
  },
  {
   "property": "C184",
   "status": "partial",
   "theorems": [
    "Verif.HepPDT.C184_scheme",
    "Verif.HepPDT.C184_couples",
    "Verif.HepPDT.C184_fundamental",
    "Verif.HepPDT.C184_antiparticle",
    "Verif.HepPDT.C184_zero_counterexample",
    "Verif.HepPDT.C184_susy_counterexample"
   ],
   "note": "JSpin is wrong for the Higgs boson, the graviton, the long-lived kaon and supersymmetric partners (counterexamples)."
  },
  {
   "property": "C185",
   "status": "partial",
   "theorems": [
    "Verif.Xrootd.Paths.C185_exclusive",
    "Verif.Xrootd.Paths.C185_known",
    "Verif.Xrootd.Paths.C185_at_most",
    "Verif.Xrootd.Paths.C185_same_number_counterexample"
   ],
   "note": "Under the condition that the server gives no number twice, which the code does not check (counterexample without it). The bound on the number of connections holds in any case. Not modelled: connections that break and the end of the session."
  },
  {
   "property": "C186",
   "status": "partial",
   "theorems": [
    "Verif.Fit.Poly.C186_least",
    "Verif.Fit.Poly.C186_exact"
   ],
   "note": "In exact arithmetic, and assuming that the solver of gonum returns what it documents, a solution with the least residual. Rounding is not modelled."
  },
  {
   "property": "C187",
   "status": "partial",
   "theorems": [
    "Verif.Riofs.SegMap.C187_tiled",
    "Verif.Riofs.SegMap.C187_sound",
    "Verif.Riofs.SegMap.C187_ends",
    "Verif.Riofs.SegMap.C187_marked",
    "Verif.Riofs.SegMap.C187_long_gap_counterexample",
    "Verif.Riofs.SegMap.C187_beyond_counterexample",
    "Verif.Riofs.SegMap.C187_loop_counterexample"
   ],
   "note": "Counterexamples: a gap of more than 2000000000 bytes is marked with that number, so that the walk goes on within it; a record that goes beyond the end of the file is not reported; with the smallest number of 32 bits as header the walk goes back and may not end."
  },
  {
   "property": "C188",
   "status": "partial",
   "theorems": [
    "Verif.Hplot.MinorTicks.C188_ticks",
    "Verif.Hplot.MinorTicks.C188_labelled",
    "Verif.Hplot.MinorTicks.C188_ends",
    "Verif.Hplot.MinorTicks.C188_lower_end_counterexample"
   ],
   "note": "In exact arithmetic, with the labels given. A minor tick exactly at the lower end of the range is missing (counterexample), one at the upper end is not."
  },
  {
   "property": "C189",
   "status": "partial",
   "theorems": [
    "Verif.Xrootd.Shutdown.C189_connections_partial",
    "Verif.Xrootd.Shutdown.C189_listeners_partial",
    "Verif.Xrootd.Shutdown.C189_serve_error",
    "Verif.Xrootd.Shutdown.C189_first_error",
    "Verif.Xrootd.Shutdown.C189_late_counterexample",
    "Verif.Xrootd.Shutdown.C189_again_counterexample"
   ],
   "note": "A connection accepted before the shutdown and registered after it is handled and never closed by it, and a server that was shut down serves again when given a listener (counterexamples); the statements exclude exactly these two. The parts of Shutdown within one lock are one step each."
  },
  {
   "property": "C19",
   "status": "proved",
   "theorems": [
    "Verif.RTree.BkReader.C19_order",
    "Verif.RTree.BkReader.C19_in_use",
    "Verif.RTree.BkReader.C19_progress",
    "Verif.RTree.BkReader.C19_measure",
    "Verif.RTree.BkReader.C19_close",
    "Verif.RTree.BkReader.C19_buffers"
   ],
   "note": "All schedules, numbers of buffers and baskets; calls of read and close in any order."
  },
  {
   "property": "C190",
   "status": "partial",
   "theorems": [
    "Verif.Xrootd.Auth.C190_methods_partial",
    "Verif.Xrootd.Auth.C190_first_partial",
    "Verif.Xrootd.Auth.C190_none_partial",
    "Verif.Xrootd.Auth.C190_name_counterexample"
   ],
   "note": "For names that do not begin with P or = : these characters are stripped from the name (counterexample). Whether the server accepts a request is a function of the request."
  },
  {
   "property": "C191",
   "status": "partial",
   "theorems": [
    "Verif.Hplot.FreqTicks.C191_ticks_partial",
    "Verif.Hplot.FreqTicks.C191_within",
    "Verif.Hplot.FreqTicks.C191_one_counterexample",
    "Verif.Hplot.FreqTicks.C191_frequency_counterexample"
   ],
   "note": "In exact arithmetic, the text of a label is a parameter. With one tick its value is not a number, and with frequency 0 there is a panic (counterexamples); all other cases are proved."
  },
  {
   "property": "C192",
   "status": "partial",
   "theorems": [
    "Verif.Xrootd.CliSessions.C192_one",
    "Verif.Xrootd.CliSessions.C192_used",
    "Verif.Xrootd.CliSessions.C192_initial",
    "Verif.Xrootd.CliSessions.C192_close_partial",
    "Verif.Xrootd.CliSessions.C192_twice_counterexample",
    "Verif.Xrootd.CliSessions.C192_closed_counterexample"
   ],
   "note": "Closing closes every session if no two calls open one at the same address at the same time; else one session is lost and stays open (counterexample). A closed client keeps its closed sessions (counterexample)."
  },
  {
   "property": "C193",
   "status": "partial",
   "theorems": [
    "Verif.HepPDT.Reso.C193_lifetime_partial",
    "Verif.HepPDT.Reso.C193_error",
    "Verif.HepPDT.Reso.C193_product",
    "Verif.HepPDT.Reso.C193_zero",
    "Verif.HepPDT.Reso.C193_short",
    "Verif.HepPDT.Reso.C193_short_counterexample",
    "Verif.HepPDT.Reso.C193_error_counterexample"
   ],
   "note": "In exact arithmetic. Lifetimes below 1e-20 s, such as that of a Z boson, are not set at all, and errors below 1e-20 s become 0 (counterexamples)."
  },
  {
   "property": "C194",
   "status": "partial",
   "theorems": [
    "Verif.Hplot.Tiled.C194_new",
    "Verif.Hplot.Tiled.C194_outside",
    "Verif.Hplot.Tiled.C194_draw",
    "Verif.Hplot.Tiled.C194_column_counterexample"
   ],
   "note": "A column that is not there gives a plot of the next row unless the row is the last (counterexample). The areas of the tiles are not part of the model."
  },
  {
   "property": "C195",
   "status": "partial",
   "theorems": [
    "Verif.Remote.XrdOpen.C195_open_fails",
    "Verif.Remote.XrdOpen.C195_open_ok",
    "Verif.Remote.XrdOpen.C195_open_total",
    "Verif.Remote.XrdOpen.C195_close",
    "Verif.Remote.XrdOpen.C195_close_from",
    "Verif.Remote.XrdOpen.C195_openFrom_fails_partial",
    "Verif.Remote.XrdOpen.C195_close_error",
    "Verif.Remote.XrdOpen.C195_leak_counterexample"
   ],
   "note": "With a connection that is given, a file whose size cannot be read stays open at the server (counterexample). A server closes the files of a connection that ends."
  },
  {
   "property": "C196",
   "status": "partial",
   "theorems": [
    "Verif.Hplot.Label.C196_fits",
    "Verif.Hplot.Label.C196_adjusted",
    "Verif.Hplot.Label.C196_refused",
    "Verif.Hplot.Label.C196_data",
    "Verif.Hplot.Label.C196_second_counterexample",
    "Verif.Hplot.Label.C196_other_counterexample"
   ],
   "note": "In exact arithmetic with linear axes and the box of the text given. A label is not placed anew on a second plot, and one that does not fit in one direction may be moved in the other too (counterexamples)."
  },
  {
   "property": "C197",
   "status": "proved",
   "theorems": [
    "Verif.Rsql.Scan.C197_all",
    "Verif.Rsql.Scan.C197_stops",
    "Verif.Rsql.Scan.C197_bad_row",
    "Verif.Rsql.Scan.C197_bad_end",
    "Verif.Rsql.Scan.C197_refused",
    "Verif.Rsql.Scan.C197_histogram",
    "Verif.Rsql.Scan.C197_no_histogram"
   ],
   "note": "The rows of the query are given (other claims treat the driver); the two executions of the query for a histogram that is made give the same rows."
  },
  {
   "property": "C20",
   "status": "partial",
   "theorems": [
    "Verif.RTree.C20_chain_partial",
    "Verif.RTree.C20_empty_range_partial",
    "Verif.RTree.C20_files_partial",
    "Verif.RTree.C20_setup",
    "Verif.RTree.C20_end_counterexample",
    "Verif.RTree.C20_empty_tree_counterexample"
   ],
   "note": "All non-empty ranges over all lists of trees, down to the files; empty ranges at the end of the chain or at an empty tree panic (proved)."
  },
  {
   "property": "C21",
   "status": "partial",
   "theorems": [
    "Verif.RTree.Access.C21_ascending_partial",
    "Verif.RTree.Access.C21_same_basket",
    "Verif.RTree.Access.C21_backward_counterexample",
    "Verif.RTree.Access.C21_skipped_counterexample"
   ],
   "note": "All ascending histories, with gaps and repetitions; going back uses a wrong basket (proved)."
  },
  {
   "property": "C22",
   "status": "partial",
   "theorems": [
    "Verif.RTree.Join.C22_iff",
    "Verif.RTree.Join.C22_columns",
    "Verif.RTree.Join.C22_rows",
    "Verif.RTree.Join.C22_read",
    "Verif.RTree.Join.C22_leaf_counterexample",
    "Verif.RTree.Join.C22_reader_counterexample"
   ],
   "note": "Acceptance, columns and reading for all lists of trees; leaves of the same name hide each other, and n-tuples, chains and joins are accepted but cannot be read (proved)."
  },
  {
   "property": "C23",
   "status": "proved",
   "theorems": [
    "Verif.Hbook.C23_fill",
    "Verif.Hbook.C23_regions_exclusive"
   ],
   "note": "Any ordered binning (uniform with rounding, variable, with gaps), any value including infinities and NaN."
  },
  {
   "property": "C24",
   "status": "proved",
   "theorems": [
    "Verif.Hbook.C24_fills",
    "Verif.Hbook.C24_totals",
    "Verif.Hbook.C24_fill_slices"
   ],
   "note": "Per-bin accumulations without any law of arithmetic; the totals over bins and outflows in exact arithmetic."
  },
  {
   "property": "C25",
   "status": "proved",
   "theorems": [
    "Verif.Hbook.C25_add_is_merge"
   ],
   "note": "Exact arithmetic, same binning; also subtraction and weighted addition."
  },
  {
   "property": "C26",
   "status": "proved",
   "theorems": [
    "Verif.Hbook.C26_fill_order"
   ],
   "note": "Exact arithmetic."
  },
  {
   "property": "C27",
   "status": "proved",
   "theorems": [
    "Verif.Hbook.C27_scale"
   ],
   "note": "Exact arithmetic."
  },
  {
   "property": "C28",
   "status": "proved",
   "theorems": [
    "Verif.Hbook.C28_integral",
    "Verif.Hbook.C28_limits"
   ],
   "note": "No law of arithmetic; sums in the order of the bins."
  },
  {
   "property": "C29",
   "status": "proved",
   "theorems": [
    "Verif.Hbook.C29_fill",
    "Verif.Hbook.C29_fills",
    "Verif.Hbook.C29_from_edges"
   ],
   "note": "All points including NaN and infinities."
  },
  {
   "property": "C30",
   "status": "partial",
   "theorems": [
    "Verif.Hbook.C30_edges_partial",
    "Verif.Hbook.C30_bins_partial",
    "Verif.Hbook.C30_uniform",
    "Verif.Hbook.C30_nan_edge_counterexample",
    "Verif.Hbook.C30_reversed_bin_counterexample"
   ],
   "note": "Proved for edges that are numbers and bins with low < high; a leading NaN edge and reversed bins are accepted (proved). Uniform binnings in exact arithmetic."
  },
  {
   "property": "C31",
   "status": "partial",
   "theorems": [
    "Verif.Hbook.C31_rand_partial",
    "Verif.Hbook.C31_cdf_partial",
    "Verif.Hbook.C31_variable_bins_counterexample",
    "Verif.Hbook.C31_cdf_gap_counterexample"
   ],
   "note": "Proved for bins of one width (exact arithmetic); false for variable bins (proved)."
  },
  {
   "property": "C32",
   "status": "partial",
   "theorems": [
    "Verif.Rio.C32_scan_partial",
    "Verif.Rio.C32_read_record_partial",
    "Verif.Rio.C32_skip",
    "Verif.Rio.C32_mixed_counterexample",
    "Verif.Rio.C32_lazy_counterexample"
   ],
   "note": "Any records and selections when the unpacked records use one lossless compressor that takes all the bytes of a record; skipping in full. Mixed compressors make the scanner fail, and a decompressor leaving bytes in the stream (flate on an empty record) makes it panic (proved)."
  },
  {
   "property": "C33",
   "status": "proved",
   "theorems": [
    "Verif.Rio.C33_options"
   ],
   "note": "All kinds, levels and codecs."
  },
  {
   "property": "C34",
   "status": "partial",
   "theorems": [
    "Verif.Sio.C34_read_partial",
    "Verif.Sio.C34_unaligned_counterexample"
   ],
   "note": "Any records, options and selections; records that are skipped must be compressed or have a multiple of four bytes, otherwise the next record is not found (proved). zlib is assumed lossless."
  },
  {
   "property": "C35",
   "status": "proved",
   "theorems": [
    "Verif.Sio.C35_pointers",
    "Verif.Sio.C35_record",
    "Verif.Sio.C35_write_ok"
   ],
   "note": "Any calls in any order over any number of blocks, and any order of map iteration. The reading code makes the calls corresponding to those of the writing code."
  },
  {
   "property": "C36",
   "status": "partial",
   "theorems": [
    "Verif.Sio.C36_blocks_partial",
    "Verif.Sio.C36_lost_block_counterexample",
    "Verif.Sio.C36_panic_counterexample",
    "Verif.Sio.C36_forged_block_counterexample"
   ],
   "note": "Proved when the blocks that are skipped do not contain the bytes de ad be ef; otherwise blocks are lost, the reader panics or wrong data are delivered (proved)."
  },
  {
   "property": "C37",
   "status": "partial",
   "theorems": [
    "Verif.Xrootd.C37_roundtrip_partial",
    "Verif.Xrootd.C37_bool_counterexample"
   ],
   "note": "All values and sequences without booleans; reading a boolean back panics or returns the following byte (proved)."
  },
  {
   "property": "C38",
   "status": "proved",
   "theorems": [
    "Verif.Xrootd.C38_unique",
    "Verif.Xrootd.C38_own_request",
    "Verif.Xrootd.C38_claim",
    "Verif.Xrootd.C38_streamID_injective"
   ],
   "note": "All interleavings of claims, responses, deliveries, releases, cancellations and lost connections."
  },
  {
   "property": "C39",
   "status": "partial",
   "theorems": [
    "Verif.Xrootd.C39_exact_partial",
    "Verif.Xrootd.C39_delivered_partial",
    "Verif.Xrootd.C39_cut_counterexample"
   ],
   "note": "Proved for all interleavings over any number of connections when the server answers only outstanding requests, each over one connection, and no connection is lost; after a loss a request can succeed with a part of its data (proved)."
  },
  {
   "property": "C40",
   "status": "partial",
   "theorems": [
    "Verif.Xrootd.C40_requests_partial",
    "Verif.Xrootd.C40_responses_partial",
    "Verif.Xrootd.C40_huge_counterexample",
    "Verif.Xrootd.C40_pathID_counterexample"
   ],
   "note": "Any sequences of messages below 2^31 bytes whose data are on the same connection; larger ones and data sent on another connection are counterexamples (proved)."
  },
  {
   "property": "C41",
   "status": "partial",
   "theorems": [
    "Verif.Xrootd.C41_inside_partial",
    "Verif.Xrootd.C41_dotdot_counterexample",
    "Verif.Xrootd.C41_empty_base_counterexample"
   ],
   "note": "Proved for paths that do not climb above their start; \"..\" leaves the base directory and an empty base serves absolute paths (proved). Symbolic links are not modelled."
  },
  {
   "property": "C42",
   "status": "partial",
   "theorems": [
    "Verif.Xrootd.C42_with_stat_partial",
    "Verif.Xrootd.C42_names_partial",
    "Verif.Xrootd.C42_linefeed_counterexample",
    "Verif.Xrootd.C42_dot_counterexample"
   ],
   "note": "Proved for names without line feeds; without stat information also the last name must not end with NUL and the first two must not look like a dot entry. What fails is proved."
  },
  {
   "property": "C43",
   "status": "proved",
   "theorems": [
    "Verif.Xrootd.C43_roundtrip",
    "Verif.Xrootd.C43_virtual"
   ],
   "note": "All 64-bit values."
  },
  {
   "property": "C44",
   "status": "proved",
   "theorems": [
    "Verif.Xrootd.C44_levels",
    "Verif.Xrootd.C44_overrides",
    "Verif.Xrootd.C44_monotone"
   ],
   "note": "All levels, overrides and requests."
  },
  {
   "property": "C45",
   "status": "partial",
   "theorems": [
    "Verif.Xrootd.C45_sequential",
    "Verif.Xrootd.C45_private",
    "Verif.Xrootd.C45_race_counterexample"
   ],
   "note": "Exact for requests one after the other; privacy for all interleavings; an open overtaken by the end of its session succeeds with a handle that is never served (proved)."
  },
  {
   "property": "C46",
   "status": "proved",
   "theorems": [
    "Verif.Xrootd.C46_bounded",
    "Verif.Xrootd.C46_endless",
    "Verif.Xrootd.C46_success",
    "Verif.Xrootd.C46_hops"
   ],
   "note": "All servers."
  },
  {
   "property": "C47",
   "status": "partial",
   "theorems": [
    "Verif.Fwk.C47_tarjan",
    "Verif.Fwk.C47_accepted_partial",
    "Verif.Fwk.C47_not_rejected",
    "Verif.Fwk.C47_self_counterexample"
   ],
   "note": "Tarjan's algorithm is proved correct for all graphs; accepted data flows have one producer per input and no cycle through two or more tasks; a task depending on itself is accepted (proved)."
  },
  {
   "property": "C48",
   "status": "proved",
   "theorems": [
    "Verif.Fwk.C48_value"
   ],
   "note": "All interleavings of any tasks."
  },
  {
   "property": "C49",
   "status": "partial",
   "theorems": [
    "Verif.Fwk.C49_progress_partial",
    "Verif.Fwk.C49_completes_partial",
    "Verif.Fwk.C49_terminates",
    "Verif.Fwk.C49_result",
    "Verif.Fwk.C49_released",
    "Verif.Fwk.C49_no_tasks_counterexample",
    "Verif.Fwk.C49_self_counterexample",
    "Verif.Fwk.C49_undeclared_put_counterexample",
    "Verif.Fwk.C49_second_put_counterexample",
    "Verif.Fwk.C49_failed_event_left_counterexample"
   ],
   "note": "All schedules and acyclic graphs, for at least one task and tasks keeping to their declared ports; the cases which hang are proved."
  },
  {
   "property": "C50",
   "status": "partial",
   "theorems": [
    "Verif.Fwk.C50_types_partial",
    "Verif.Fwk.C50_order_counterexample",
    "Verif.Fwk.C50_order_refused"
   ],
   "note": "Holds when the producer is declared first; in the other order different types are accepted (proved)."
  },
  {
   "property": "C51",
   "status": "partial",
   "theorems": [
    "Verif.Lcio.C51_value_exact",
    "Verif.Lcio.C51_get_partial",
    "Verif.Lcio.C51_top_field_counterexample"
   ],
   "note": "Exact extent proved: right for every field below bit 63, and for fields reaching bit 63 only for ids with that bit clear (or a 64-bit signed field)."
  },
  {
   "property": "C52",
   "status": "proved",
   "theorems": [
    "Verif.SliceOp.C52_filter",
    "Verif.SliceOp.C52_find_ints",
    "Verif.SliceOp.C52_find",
    "Verif.SliceOp.C52_map",
    "Verif.SliceOp.C52_take",
    "Verif.SliceOp.C52_resize",
    "Verif.SliceOp.C52_overlap_counterexample"
   ],
   "note": "Memory model with aliasing slices; in-place use covered; a destination starting inside the source is shown to be unsafe."
  },
  {
   "property": "C53",
   "status": "partial",
   "theorems": [
    "Verif.FastJet.C53_partition",
    "Verif.FastJet.C53_other",
    "Verif.FastJet.C53_cambridge",
    "Verif.FastJet.C53_kt",
    "Verif.FastJet.C53_total",
    "Verif.FastJet.C53_nan_counterexample"
   ],
   "note": "All events, distances and recombinations, with any cut; Kt for numbers without NaN. A particle whose transverse momentum is NaN is in no inclusive jet (proved). The strategy NlnN panics and is not modelled."
  },
  {
   "property": "C54",
   "status": "proved",
   "theorems": [
    "Verif.FastJet.C54_exclusive",
    "Verif.FastJet.C54_dcut",
    "Verif.FastJet.C54_too_many",
    "Verif.FastJet.C54_negative_counterexample",
    "Verif.FastJet.C54_negative_cut_counterexample",
    "Verif.FastJet.C54_beam_counterexample"
   ],
   "note": "All events and k; also the jets for a cut. Negative numbers of jets panic, negative cuts are refused (proved)."
  },
  {
   "property": "C55",
   "status": "partial",
   "theorems": [
    "Verif.HepPDT.C55_conjugate_partial",
    "Verif.HepPDT.C55_no_panic_partial",
    "Verif.HepPDT.C55_antinucleus_counterexample",
    "Verif.HepPDT.C55_panic_counterexample"
   ],
   "note": "Proved for ids of at most seven digits; antinuclei get the charge of the nucleus, and some ids panic (proved)."
  },
  {
   "property": "C56",
   "status": "proved",
   "theorems": [
    "Verif.HepPDT.C56_exclusive"
   ],
   "note": "All integers."
  },
  {
   "property": "C57",
   "status": "partial",
   "theorems": [
    "Verif.RBytes.C57_string_slice_roundtrip_partial",
    "Verif.RBytes.C57_empty_strings_counterexample"
   ],
   "note": "False for slices of empty strings written to a full buffer (io.EOF); proved otherwise."
  },
  {
   "property": "C58",
   "status": "partial",
   "theorems": [
    "Verif.RBytes.C58_reset_is_new_partial",
    "Verif.RBytes.C58_reset_counterexample"
   ],
   "note": "False if the buffer had an error: Reset keeps it."
  },
  {
   "property": "C59",
   "status": "partial",
   "theorems": [
    "Verif.Riofs.C59_dir_header_roundtrip_partial",
    "Verif.Riofs.C59_big_subdirectory_counterexample"
   ],
   "note": "Proved when offsets fit the layout announced by the version; sub-directories of files above 2^31 bytes lose their key list (proved)."
  },
  {
   "property": "C60",
   "status": "partial",
   "theorems": [
    "Verif.Hbook.C60_bin_lookup_partial",
    "Verif.Hbook.C60_gap_counterexample"
   ],
   "note": "Proved without gaps; a coordinate in a gap panics (proved)."
  },
  {
   "property": "C61",
   "status": "partial",
   "theorems": [
    "Verif.Hbook.C61_mismatch_refused_partial",
    "Verif.Hbook.C61_inner_edges_counterexample"
   ],
   "note": "Different inner edges are not noticed (proved)."
  },
  {
   "property": "C62",
   "status": "proved",
   "theorems": [
    "Verif.Lcio.C62_description",
    "Verif.Lcio.C62_value_string"
   ],
   "note": "All codecs with distinct names free of separators."
  },
  {
   "property": "C63",
   "status": "proved",
   "theorems": [
    "Verif.HepPDT.C63_meson_charge",
    "Verif.HepPDT.C63_baryon_charge"
   ],
   "note": "All positive ids of at most seven digits whose digits name quarks."
  },
  {
   "property": "C64",
   "status": "partial",
   "theorems": [
    "Verif.HepPDT.C64_quarks_partial",
    "Verif.HepPDT.C64_pion_counterexample"
   ],
   "note": "Hadrons whose leading quark digit is not the up/down pair 2; for the positive pion the down quark is not reported (proved)."
  },
  {
   "property": "C65",
   "status": "partial",
   "theorems": [
    "Verif.Rio.C65_blocks_partial",
    "Verif.Rio.C65_stale_blocks_counterexample"
   ],
   "note": "Proved when the unpacked records have the same block names; otherwise blocks of earlier records remain (proved)."
  },
  {
   "property": "C66",
   "status": "partial",
   "theorems": [
    "Verif.Rio.C66_get_partial",
    "Verif.Rio.C66_block_name_counterexample"
   ],
   "note": "Proved for records with a block of the same name (as WriteValue makes); otherwise Get panics (proved). Encoding of the metadata is a parameter."
  },
  {
   "property": "C67",
   "status": "partial",
   "theorems": [
    "Verif.Sio.C67_roundtrip_partial",
    "Verif.Sio.C67_map_of_structs_counterexample"
   ],
   "note": "All types except maps with structures as keys or values, for which encoding panics (proved)."
  },
  {
   "property": "C68",
   "status": "partial",
   "theorems": [
    "Verif.Sio.C68_truncated_partial",
    "Verif.Sio.C68_string_counterexample"
   ],
   "note": "All types without strings; cut strings are accepted (proved)."
  },
  {
   "property": "C69",
   "status": "partial",
   "theorems": [
    "Verif.Xrootd.C69_requests_partial",
    "Verif.Xrootd.C69_responses_partial",
    "Verif.Xrootd.C69_mv_counterexample",
    "Verif.Xrootd.C69_prepare_counterexample",
    "Verif.Xrootd.C69_open_stat_counterexample",
    "Verif.Xrootd.C69_overrides_counterexample"
   ],
   "note": "All 27 kinds of requests and 13 kinds of responses, with the exact conditions; what fails is proved."
  },
  {
   "property": "C70",
   "status": "partial",
   "theorems": [
    "Verif.Xrootd.C70_no_panic_partial",
    "Verif.Xrootd.C70_huge_counterexample",
    "Verif.Xrootd.C70_read_partial",
    "Verif.Xrootd.C70_read_counterexample"
   ],
   "note": "Parsing any bytes split off the connection below 2 GiB; larger ones panic (proved), and reading a negative number of bytes panics (proved). Of the handler only reading is covered."
  },
  {
   "property": "C71",
   "status": "partial",
   "theorems": [
    "Verif.Xrootd.C71_chain",
    "Verif.Xrootd.C71_set_get_partial",
    "Verif.Xrootd.C71_parse",
    "Verif.Xrootd.C71_requests_partial",
    "Verif.Xrootd.C71_requests_other",
    "Verif.Xrootd.C71_no_opaque_counterexample",
    "Verif.Xrootd.C71_question_counterexample",
    "Verif.Xrootd.C71_stat_handle_counterexample",
    "Verif.Xrootd.C71_short_counterexample"
   ],
   "note": "Proved for paths without question marks; what fails is proved."
  },
  {
   "property": "C72",
   "status": "partial",
   "theorems": [
    "Verif.Xrootd.C72_verifies_partial",
    "Verif.Xrootd.C72_message",
    "Verif.Xrootd.C72_sequence_partial",
    "Verif.Xrootd.C72_verifyw_counterexample",
    "Verif.Xrootd.C72_wait_counterexample",
    "Verif.Xrootd.C72_race_counterexample"
   ],
   "note": "SHA-256 is a parameter. All requests but verifyw; sequence numbers increase when requests are sent one after the other and never re-issued; a re-issued request repeats its number and concurrent requests can be sent in the wrong order (proved)."
  },
  {
   "property": "C73",
   "status": "partial",
   "theorems": [
    "Verif.Xrootd.C73_progress_partial",
    "Verif.Xrootd.C73_terminates",
    "Verif.Xrootd.C73_cancel_counterexample",
    "Verif.Xrootd.C73_lost_counterexample",
    "Verif.Xrootd.C73_stray_counterexample"
   ],
   "note": "Without cancellations, losses and stray responses no goroutine is ever blocked; each of the three blocks or crashes the client (proved)."
  },
  {
   "property": "C74",
   "status": "partial",
   "theorems": [
    "Verif.Fwk.C74_once",
    "Verif.Fwk.C74_progress",
    "Verif.Fwk.C74_terminates",
    "Verif.Fwk.C74_sequential",
    "Verif.Fwk.C74_eof_counterexample"
   ],
   "note": "All schedules, any number of workers and events; the processing of one event is C49. The two modes disagree on the end of the input (proved)."
  },
  {
   "property": "C75",
   "status": "partial",
   "theorems": [
    "Verif.Fwk.C75_run",
    "Verif.Fwk.C75_script_order",
    "Verif.Fwk.C75_not_stopped_counterexample",
    "Verif.Fwk.C75_again_counterexample",
    "Verif.Fwk.C75_panic_counterexample",
    "Verif.Fwk.C75_second_run_counterexample"
   ],
   "note": "Order of the phases for all components and failures, and for all scripts; repeated phases, panics after a shutdown and components left unstopped are proved."
  },
  {
   "property": "C76",
   "status": "partial",
   "theorems": [
    "Verif.Fwk.C76_one_stream_partial",
    "Verif.Fwk.C76_two_streams_counterexample",
    "Verif.Fwk.C76_exchanged_counterexample"
   ],
   "note": "All interleavings with one output stream; two output streams share their channels and exchange events and results (proved)."
  },
  {
   "property": "C77",
   "status": "partial",
   "theorems": [
    "Verif.Fwk.C77_fills_partial",
    "Verif.Fwk.C77_name",
    "Verif.Fwk.C77_same_name_counterexample"
   ],
   "note": "Proved for distinct identifiers; histograms of the same name in two streams are mixed up (proved)."
  },
  {
   "property": "C78",
   "status": "proved",
   "theorems": [
    "Verif.FastJet.C78_momentum",
    "Verif.FastJet.C78_inclusive"
   ],
   "note": "Exact arithmetic (any commutative monoid), for all jets of the clustering."
  },
  {
   "property": "C79",
   "status": "proved",
   "theorems": [
    "Verif.FastJet.C79_closest",
    "Verif.FastJet.C79_step"
   ],
   "note": "Any linear order."
  },
  {
   "property": "C80",
   "status": "proved",
   "theorems": [
    "Verif.FastJet.PairHeap.C80_new",
    "Verif.FastJet.PairHeap.C80_push",
    "Verif.FastJet.PairHeap.C80_pop",
    "Verif.FastJet.PairHeap.C80_empty",
    "Verif.FastJet.PairHeap.C80_sorts",
    "Verif.FastJet.PairHeap.C80_nan_counterexample"
   ],
   "note": "All operation sequences, no index out of range; with NaN the order is lost (proved)."
  },
  {
   "property": "C81",
   "status": "partial",
   "theorems": [
    "Verif.Riofs.C81_reopen_partial",
    "Verif.Riofs.C81_no_panic_partial",
    "Verif.Riofs.C81_close_panics_iff",
    "Verif.Riofs.C81_long_path_counterexample"
   ],
   "note": "Files below 2000000000 bytes under paths of less than about 475 bytes, objects whose compressed form does not have exactly the original length; longer paths give files that cannot be opened (proved). Objects are the bytes they marshal to; streamer infos are a parameter."
  },
  {
   "property": "C82",
   "status": "partial",
   "theorems": [
    "Verif.RBytes.Refs.C82_roundtrip_partial",
    "Verif.RBytes.Refs.C82_write_ends",
    "Verif.RBytes.Refs.C82_depth",
    "Verif.RBytes.Refs.C82_objarray",
    "Verif.RBytes.Refs.C82_cycle_new_counterexample",
    "Verif.RBytes.Refs.C82_cycle_known_counterexample",
    "Verif.RBytes.Refs.C82_long_class_counterexample"
   ],
   "note": "Proved for every acyclic family of objects (rank function) with class names below 80 bytes and records below 1 GiB; the classes are given by arbitrary decoders that follow what MarshalROOT wrote, and TObjArray is shown to be one. False for cycles: a self-pointing object of a new class is written but read as nil with an error, one of a known class makes the writer recurse for ever; class names of 80 bytes shift the content by one byte without an error."
  },
  {
   "property": "C83",
   "status": "partial",
   "theorems": [
    "Verif.HepMC.C83_events_read_back_partial",
    "Verif.HepMC.C83_bytes_independent_of_map_order",
    "Verif.HepMC.C83_long_line_refused",
    "Verif.HepMC.C83_no_vertex_counterexample",
    "Verif.HepMC.C83_name_with_blank_counterexample",
    "Verif.HepMC.C83_unnamed_weights_counterexample",
    "Verif.HepMC.C83_beam_counterexample",
    "Verif.HepMC.C83_lone_particle_counterexample"
   ],
   "note": "Any events and graphs that are consistent, have a vertex, whose particles touch a vertex and whose beams end in one, each weight with one name without blanks, lines below 64 KiB; printing and parsing of numbers and quoting are parameters assumed lossless. A missing PdfInfo is read as zeros. What fails otherwise is proved: lost or unreadable events, lost particles, beams and weights."
  },
  {
   "property": "C84",
   "status": "partial",
   "theorems": [
    "Verif.HepMC.C84_build_partial",
    "Verif.HepMC.C84_build_runs",
    "Verif.HepMC.C84_built_writable",
    "Verif.HepMC.C84_addVertex",
    "Verif.HepMC.C84_addIn",
    "Verif.HepMC.C84_addOut",
    "Verif.HepMC.C84_add_after_read_counterexample",
    "Verif.HepMC.C84_zero_event_counterexample",
    "Verif.HepMC.C84_no_event_counterexample",
    "Verif.HepMC.C84_chosen_barcode_counterexample",
    "Verif.HepMC.C84_move_counterexample"
   ],
   "note": "All programs building one new event with barcodes left to the event; single operations also with barcodes that are not in use. An event that was read reuses barcodes, a chosen barcode can be taken again, a zero Event or a vertex outside an event panics, and moving a vertex between events splits particles from it (proved)."
  },
  {
   "property": "C85",
   "status": "partial",
   "theorems": [
    "Verif.HepMC.C85_copy_same_file_partial",
    "Verif.HepMC.C85_reused_event",
    "Verif.HepMC.C85_stale_counterexample"
   ],
   "note": "Files in which no event lacks a cross section, heavy-ion data, signal vertex or beam that an earlier one has; otherwise the copy has those of the earlier event (proved). What remains in a reused event is stated exactly."
  },
  {
   "property": "C86",
   "status": "partial",
   "theorems": [
    "Verif.HepMC.C86_decode_returns_partial",
    "Verif.HepMC.C86_read_until_error_returns",
    "Verif.HepMC.C86_decode_after_end_counterexample",
    "Verif.HepMC.C86_ascii_never_read"
   ],
   "note": "All bytes, up to the first error or end of file; a later call waits for ever (proved). No file in the IO_Ascii format can be read (proved)."
  },
  {
   "property": "C87",
   "status": "proved",
   "theorems": [
    "Verif.Hbook.Brio.C87_h1d",
    "Verif.Hbook.Brio.C87_h2d",
    "Verif.Hbook.Brio.C87_p1d",
    "Verif.Hbook.Brio.C87_s2d",
    "Verif.Hbook.Brio.C87_h1d_stream",
    "Verif.Hbook.Brio.C87_marshal_error"
   ],
   "note": "All contents and all annotations whose own gob encoding is lossless, numbers of entries within int64, records below 2^63 bytes. A record cut short makes UnmarshalBinary panic (proved at every length); the stream reader returns an error."
  },
  {
   "property": "C88",
   "status": "partial",
   "theorems": [
    "Verif.Hbook.Prof.C88_accounted",
    "Verif.Hbook.Prof.C88_entries",
    "Verif.Hbook.Prof.C88_new",
    "Verif.Hbook.Prof.C88_fill_partial",
    "Verif.Hbook.Prof.C88_fills_partial",
    "Verif.Hbook.Prof.C88_last_value_counterexample"
   ],
   "note": "That entries are neither lost nor counted twice holds in any arithmetic, for fills that do not panic. The placement and the absence of panics hold in exact arithmetic. In floating point they fail: on NewP1D(10,-1,1) filling at 1-2^-53, or at NaN, panics (proved with rounding to 53 bits)."
  },
  {
   "property": "C89",
   "status": "partial",
   "theorems": [
    "Verif.Hbook.Prof.C89_histogram",
    "Verif.Hbook.Prof.C89_profile_ignores_y",
    "Verif.Hbook.Prof.C89_profile_counterexample"
   ],
   "note": "Histograms: exact arithmetic. Profiles: false, the scatter of a profile depends only on x and the weights (proved for all fills, any arithmetic)."
  },
  {
   "property": "C90",
   "status": "partial",
   "theorems": [
    "Verif.Hbook.Prof.C90_quotient_partial",
    "Verif.Hbook.Prof.C90_same_edges",
    "Verif.Hbook.Prof.C90_number_of_bins_counterexample"
   ],
   "note": "Equal numbers of bins, exact arithmetic. With different numbers of bins there is a panic or no error (proved)."
  },
  {
   "property": "C91",
   "status": "proved",
   "theorems": [
    "Verif.Hbook.Prof.C91_mean",
    "Verif.Hbook.Prof.C91_variance",
    "Verif.Hbook.Prof.C91_variance_unweighted",
    "Verif.Hbook.Prof.C91_effective_entries",
    "Verif.Hbook.Prof.C91_scale",
    "Verif.Hbook.Prof.C91_scale_profile"
   ],
   "note": "Exact arithmetic over ordered fields, for distributions that accumulated the entries as C24 proves for histograms."
  },
  {
   "property": "C92",
   "status": "partial",
   "theorems": [
    "Verif.FastJet.Pred.C92_quick_orientation_partial",
    "Verif.FastJet.Pred.C92_orientation_partial",
    "Verif.FastJet.Pred.C92_quick_incircle_partial",
    "Verif.FastJet.Pred.C92_incircle_partial",
    "Verif.FastJet.Pred.C92_robust_orientation",
    "Verif.FastJet.Pred.C92_robust_incircle",
    "Verif.FastJet.Pred.C92_underflow_counterexample"
   ],
   "note": "Coordinates that are multiples of 2^-484 (orientation) or 2^-240 (circles), any size including overflow; binary64 arithmetic without fused multiply-add, through properties of rounding that are proved for a complete definition of it. The second stage (LU factorisation in gonum) is assumed right when needed. For smaller coordinates products underflow and the quick answer can be wrong (proved)."
  },
  {
   "property": "C93",
   "status": "partial",
   "theorems": [
    "Verif.Fmom.C93_set_partial",
    "Verif.Fmom.C93_getters_partial",
    "Verif.Fmom.C93_set_components",
    "Verif.Fmom.C93_spacelike_counterexample",
    "Verif.Fmom.C93_negative_energy_counterexample"
   ],
   "note": "Real arithmetic, momenta that are not spacelike, not along the axis, with pseudo-rapidity up to 710 (the cut in the code). Spacelike momenta lose energy and mass squared, massive ones of negative energy change its sign in IPtCotThPhiM (both proved)."
  },
  {
   "property": "C94",
   "status": "partial",
   "theorems": [
    "Verif.Fmom.C94_sum_partial",
    "Verif.Fmom.C94_invariant_mass_partial",
    "Verif.Fmom.C94_boost_invariant_partial",
    "Verif.Fmom.C94_boost_back_partial",
    "Verif.Fmom.C94_rest_frame_partial",
    "Verif.Fmom.C94_rapidity",
    "Verif.Fmom.C94_axis_counterexample"
   ],
   "note": "Real arithmetic. For PxPyPzE without restriction; for the other kinds when the result can be held by that kind, which a result along the axis cannot (proved)."
  },
  {
   "property": "C95",
   "status": "partial",
   "theorems": [
    "Verif.Fmom.C95_delta_phi_partial",
    "Verif.Fmom.C95_delta_phi_counterexample",
    "Verif.Fmom.C95_delta_r",
    "Verif.Fmom.C95_cos_theta_partial"
   ],
   "note": "Real arithmetic. DeltaPhi can be pi, which the documentation excludes (proved). CosTheta for momenta whose P2 agrees with the components, as C93 proves."
  },
  {
   "property": "C96",
   "status": "proved",
   "theorems": [
    "Verif.Rdict.C96_template_arguments"
   ],
   "note": "Names without white space other than at the places where the names are written with it; the white space of Latin-1."
  },
  {
   "property": "C97",
   "status": "partial",
   "theorems": [
    "Verif.Rdict.C97_struct_roundtrip_partial",
    "Verif.Rdict.C97_fresh_receiver_partial",
    "Verif.Rdict.C97_map_receiver_counterexample",
    "Verif.Rdict.C97_counted_receiver_counterexample",
    "Verif.Rdict.C97_late_counter_counterexample"
   ],
   "note": "Without pointers, TObject, Float16 and Double32; objects below 1 GiB; receivers whose maps and counted arrays of objects are empty, counters before their arrays. Without these it fails (proved): old entries survive, late counters are not known when reading."
  },
  {
   "property": "C98",
   "status": "partial",
   "theorems": [
    "Verif.Rdict.C98_truncated_struct_partial"
   ],
   "note": "For the types of C97, with no data beyond the cut in the buffer."
  },
  {
   "property": "C99",
   "status": "partial",
   "theorems": [
    "Verif.Rdict.C99_codec_roundtrip_partial",
    "Verif.Rdict.C99_second_encoder_counterexample"
   ],
   "note": "For the types of C97. A streamer info whose counter is missing is refused only once: the second encoder is handed out and writes no fields (proved)."
  }
 ]
}
