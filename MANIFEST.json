{
 "claims": [
  {
   "property": "C01",
   "status": "proved",
   "theorems": [
    "CP.C01_startstop_semantics",
    "CP.C01_startstop_method"
   ],
   "note": ""
  },
  {
   "property": "C02",
   "status": "proved",
   "theorems": [
    "CP.C02_startstop_causal"
   ],
   "note": ""
  },
  {
   "property": "C03",
   "status": "proved",
   "theorems": [
    "CP.C03_slices_are_maximal_runs",
    "CP.C03_true_in_exactly_one"
   ],
   "note": ""
  },
  {
   "property": "C04",
   "status": "proved",
   "theorems": [
    "CP.C04_parts_partition_filter"
   ],
   "note": ""
  },
  {
   "property": "C05",
   "status": "proved",
   "theorems": [
    "CP.C05_min_duration",
    "CP.truncRat_spec"
   ],
   "note": "duration*samplerate is taken as its (float) value; float multiplication is not modelled"
  },
  {
   "property": "C06",
   "status": "proved",
   "theorems": [
    "CP.C06_max_duration",
    "CP.truncRat_spec"
   ],
   "note": ""
  },
  {
   "property": "C07",
   "status": "proved",
   "theorems": [
    "CP.C07_duration_composes"
   ],
   "note": ""
  },
  {
   "property": "C08",
   "status": "partial",
   "theorems": [
    "CP.C08_masked_exact",
    "CP.C08_nan_masking_partial",
    "CP.C08_counterexample",
    "CP.C08_exact",
    "CP.C08_nearest"
   ],
   "note": "as stated it is false for integers above 2^53 (upcast to float64): counterexample proved; proved for smaller ones, and an exact characterisation with the upcast for all"
  },
  {
   "property": "C09",
   "status": "proved",
   "theorems": [
    "CP.C09_parts_reflect_mask"
   ],
   "note": ""
  },
  {
   "property": "C10",
   "status": "proved",
   "theorems": [
    "CP.C10_mindur_persistent"
   ],
   "note": ""
  },
  {
   "property": "C100",
   "status": "partial",
   "theorems": [
    "CP.C100_records_partial",
    "CP.C100_exact",
    "CP.C100_lookup",
    "CP.C100_foreign",
    "CP.C100_accepts",
    "CP.C100_counterexample"
   ],
   "note": "False as stated with fallback=True when a channel is named like the fallback name of another (C100_counterexample; C100_foreign: such a field holds the channel of that name). C100_records_partial: true without fallback, and with fallback when there is no such name; C100_lookup: in general the column of a field is the channel its name leads to; C100_exact: for channels of equal length, exactly when each channel whose fallback name is the name of another has the values of that one; C100_accepts: exactly when there are records."
  },
  {
   "property": "C101",
   "status": "partial",
   "theorems": [
    "CP.C101_fits_partial",
    "CP.C101_step",
    "CP.C101_filters",
    "CP.C101_new",
    "CP.C101_what_happens",
    "CP.C101_counterexample",
    "CP.C101_append_counterexample"
   ],
   "note": "False as stated (C101_counterexample: channels put into an empty pack one by one have no mask; C101_append_counterexample: an append that raises for the names). C101_step: exactly after which operations the mask fits; C101_fits_partial: so for histories of these; C101_filters: fitting is the same as that all channels can be filtered."
  },
  {
   "property": "C102",
   "status": "proved",
   "theorems": [
    "CP.C102_column",
    "CP.C102_row",
    "CP.C102_rows",
    "CP.C102_shaped",
    "CP.C102_readxl"
   ],
   "note": "For item access only integers and pairs of integers are modelled."
  },
  {
   "property": "C103",
   "status": "partial",
   "theorems": [
    "CP.C103_index_partial",
    "CP.C103_values",
    "CP.C103_format",
    "CP.C103_exact",
    "CP.C103_counterexample"
   ],
   "note": "False as stated (C103_counterexample: with formatting_info an empty cell of a formatted row has another xf_index when found by a negative row index). C103_index_partial: so without formatting_info; C103_values: always for values and types; C103_exact: exactly when."
  },
  {
   "property": "C104",
   "status": "partial",
   "theorems": [
    "CP.C104_name_cells_partial",
    "CP.C104_exact",
    "CP.C104_wrong_exceptions",
    "CP.C104_counterexample"
   ],
   "note": "False as stated (C104_wrong_exceptions: for =S!$A$1:OFFSET(S!$A$1,1,0) area2d and cell raise TypeError, for =S!$A$1:#REF! AttributeError). C104_name_cells_partial: all that is said about names for areas; C104_exact: exactly which results give another exception than XLRDError, for all records and formulas whatever their bytes (the boxes of all results are shown to be of sheets that are there)."
  },
  {
   "property": "C105",
   "status": "partial",
   "theorems": [
    "CP.C105_areas",
    "CP.C105_cells_partial",
    "CP.C105_exact",
    "CP.C105_distinct",
    "CP.C105_ranges_partial",
    "CP.C105_wrong_cells",
    "CP.C105_counterexample"
   ],
   "note": "False as stated if only the row or only the column of the base cell is given (C105_wrong_cells: cellnamerel(4, 1, 0, 1, None, 2) is DR5, the name of another cell). C105_areas: all of it for fixed references; C105_cells_partial, C105_ranges_partial: relative ones with the base given in full or not at all; C105_exact: exactly which cells have their names."
  },
  {
   "property": "C106",
   "status": "proved",
   "theorems": [
    "CP.C106_by_index",
    "CP.C106_by_name",
    "CP.C106_all",
    "CP.C106_get",
    "CP.C106_unload",
    "CP.C106_names",
    "CP.C106_loaded",
    "CP.C106_first",
    "CP.C106_number"
   ],
   "note": "Books in any state that any calls lead to. C106_loaded with C106_first tells which sheets are loaded after any calls. Reading a sheet is a parameter, with what of the book it looks at and changes; C107 fills it in for xls files. C106_number: the attribute number is what the sheet was asked for with, -1 for sheet_by_index(-1) on demand."
  },
  {
   "property": "C107",
   "status": "proved",
   "theorems": [
    "CP.C107_same",
    "CP.C107_sheets",
    "CP.C107_list",
    "CP.C107_order"
   ],
   "note": "C107_list needs no condition on the file. C107_order shows that the condition of C107_same is needed: a file with an empty COUNTRY record in its first sheet and another one in its second opens at once, but on demand the first sheet is an AssertionError after the second."
  },
  {
   "property": "C108",
   "status": "proved",
   "theorems": [
    "CP.C108_override",
    "CP.C108_texts",
    "CP.C108_unicode",
    "CP.C108_unicode_books"
   ],
   "note": "C108_override is about all streams, also those that raise an exception. C108_texts is within the limits of C68 (C68_stream_partial). C108_unicode is the part about BIFF 8; C108_unicode_books shows that its hypothesis holds for names and objects as xlrd reads them. BIFF 2 to 4 with encoding_override are not modelled."
  },
  {
   "property": "C11",
   "status": "partial",
   "theorems": [
    "CP.C11_mask_reset_partial",
    "CP.C11_exact",
    "CP.C11_counterexample"
   ],
   "note": "false when the lowest channel holds NaN: counterexample proved; proved without NaN, and exactly what the mask is for all packs"
  },
  {
   "property": "C12",
   "status": "proved",
   "theorems": [
    "CP.C12_append_concatenates",
    "CP.C12_append_many"
   ],
   "note": ""
  },
  {
   "property": "C13",
   "status": "partial",
   "theorems": [
    "CP.C13_append_atomic_partial",
    "CP.C13_exact",
    "CP.C13_counterexample"
   ],
   "note": "false when the names do not align: counterexample proved; proved when names align, and exactly when ValueError is raised and what is changed then"
  },
  {
   "property": "C14",
   "status": "partial",
   "theorems": [
    "CP.C14_independent_partial",
    "CP.C14_exact",
    "CP.C14_receiver",
    "CP.C14_others",
    "CP.C14_new",
    "CP.C14_sharing",
    "CP.C14_masks",
    "CP.C14_reachable",
    "CP.C14_counterexample",
    "CP.C14_mask_counterexample"
   ],
   "note": "false after appending to an empty pack: counterexample proved; proved for programs where no dict gets shared, and for all what exactly sharing can change. C14_exact: a pack is left alone by whatever is done to another one exactly if they have no dict in common"
  },
  {
   "property": "C15",
   "status": "proved",
   "theorems": [
    "CP.C15_lookup_order",
    "CP.C15_resolution_unique"
   ],
   "note": "FALLBACK_PREFIX taken literally (no regex special characters), ASCII digits"
  },
  {
   "property": "C16",
   "status": "proved",
   "theorems": [
    "CP.C16_fallback_roundtrip",
    "CP.C16_fallback_name_exists"
   ],
   "note": ""
  },
  {
   "property": "C17",
   "status": "proved",
   "theorems": [
    "CP.C17_nof_dispatch"
   ],
   "note": ""
  },
  {
   "property": "C18",
   "status": "proved",
   "theorems": [
    "CP.C18_part_argument"
   ],
   "note": ""
  },
  {
   "property": "C19",
   "status": "proved",
   "theorems": [
    "CP.C19_records_agree"
   ],
   "note": ""
  },
  {
   "property": "C20",
   "status": "proved",
   "theorems": [
    "CP.C20_only_int_keys",
    "CP.C20_oneshot_counterexample",
    "CP.C20_iterator_item_counterexample"
   ],
   "note": "dicts, sequences of sequences (also iterators for data); the counterexamples show shapes outside the claim"
  },
  {
   "property": "C21",
   "status": "partial",
   "theorems": [
    "CP.C21_npdict_update",
    "CP.C21_intkeydict_update_partial",
    "CP.C21_exact",
    "CP.C21_counterexample",
    "CP.C21_oneshot_is_lost"
   ],
   "note": "proved for data (NpDict); for names (IntKeyDict) false with one-shot iterators: counterexample proved, proved for dicts and lists"
  },
  {
   "property": "C22",
   "status": "proved",
   "theorems": [
    "CP.C22_intkeydict_rejected",
    "CP.C22_npdict_rejected"
   ],
   "note": ""
  },
  {
   "property": "C23",
   "status": "proved",
   "theorems": [
    "CP.C23_filenames_consistent"
   ],
   "note": ""
  },
  {
   "property": "C24",
   "status": "proved",
   "theorems": [
    "CP.C24_dbf_decoded"
   ],
   "note": "float() of bytes is a parameter; a table without live records has names but no channels"
  },
  {
   "property": "C25",
   "status": "partial",
   "theorems": [
    "CP.C25_selection_partial",
    "CP.C25_exact",
    "CP.C25_places",
    "CP.C25_counterexample",
    "CP.C25_str_partial",
    "CP.C25_str_counterexample"
   ],
   "note": "false with deleted records unless the last field is selected: counterexample proved; proved for files where only the last record may be deleted, and for selections with the last field; C25_exact: which places of the file are read as records in general, C25_places: there are such places in every file"
  },
  {
   "property": "C26",
   "status": "proved",
   "theorems": [
    "CP.C26_missing_values",
    "CP.C26_empty_logical_is_true"
   ],
   "note": ""
  },
  {
   "property": "C27",
   "status": "proved",
   "theorems": [
    "CP.C27_bijection",
    "CP.C27_order",
    "CP.C27_case_and_rejection"
   ],
   "note": "str.upper is a parameter that is right on ASCII"
  },
  {
   "property": "C28",
   "status": "proved",
   "theorems": [
    "CP.C28_cell_references",
    "CP.C28_trailing_text_is_ignored"
   ],
   "note": "ASCII digits; the second theorem records that text after the address is ignored"
  },
  {
   "property": "C29",
   "status": "proved",
   "theorems": [
    "CP.C29_usecols_strings",
    "CP.C29_usecols_sequences"
   ],
   "note": ""
  },
  {
   "property": "C30",
   "status": "proved",
   "theorems": [
    "CP.C30_columns_typed"
   ],
   "note": ""
  },
  {
   "property": "C31",
   "status": "proved",
   "theorems": [
    "CP.C31_sheetpack_range",
    "CP.C31_sheetpack_accepts"
   ],
   "note": ""
  },
  {
   "property": "C32",
   "status": "proved",
   "theorems": [
    "CP.C32_serial_days"
   ],
   "note": "float products are parameters with the stated sanity property, which binary64 has (ieeeMul_sane)"
  },
  {
   "property": "C33",
   "status": "proved",
   "theorems": [
    "CP.C33_accepted",
    "CP.C33_roundtrip"
   ],
   "note": ""
  },
  {
   "property": "C34",
   "status": "proved",
   "theorems": [
    "CP.C34_time_of_day",
    "CP.C34_exact",
    "CP.C34_ieee"
   ],
   "note": "C34_time_of_day for any rounding of the products with the stated sanity property, C34_ieee for binary64"
  },
  {
   "property": "C35",
   "status": "proved",
   "theorems": [
    "CP.C35_datetime_agrees",
    "CP.C35_day60_collides"
   ],
   "note": ""
  },
  {
   "property": "C36",
   "status": "proved",
   "theorems": [
    "CP.C36_errors",
    "CP.C36_last_half_second"
   ],
   "note": "the day meant is the one after rounding to a second; the second theorem shows the effect just below day 1"
  },
  {
   "property": "C37",
   "status": "partial",
   "theorems": [
    "CP.C37_table_read_partial",
    "CP.C37_lines",
    "CP.C37_exact",
    "CP.C37_tab_line_counterexample"
   ],
   "note": "false for a line of tabs only without a delimiter: counterexample proved; proved for blank lines of the other whitespace, and rows that are not blank; C37_exact: without a delimiter, which blank lines are taken for rows, and what is read with and without them; float() of str is a parameter"
  },
  {
   "property": "C38",
   "status": "partial",
   "theorems": [
    "CP.C38_usecols_partial",
    "CP.C38_exact",
    "CP.C38_counterexample"
   ],
   "note": "false for usecols that are not increasing: counterexample proved; proved for increasing ones, any stream, and exactly where the columns go for distinct ones in any order"
  },
  {
   "property": "C39",
   "status": "partial",
   "theorems": [
    "CP.C39_names_partial",
    "CP.C39_names_selected_partial",
    "CP.C39_exact",
    "CP.C39_counterexample"
   ],
   "note": "false for usecols that are not increasing: counterexample proved; proved without usecols and with increasing ones; C39_exact: which names there are for others, and exactly when they are right"
  },
  {
   "property": "C40",
   "status": "partial",
   "theorems": [
    "CP.C40_debug_partial",
    "CP.C40_exact",
    "CP.C40_counterexample",
    "CP.C40_debug_hides_error"
   ],
   "note": "false for lines shorter than the first: counterexample proved; proved else, and for all streams that debug only adds shorter columns"
  },
  {
   "property": "C41",
   "status": "proved",
   "theorems": [
    "CP.C41_column_types"
   ],
   "note": "float() of str is a parameter"
  },
  {
   "property": "C42",
   "status": "partial",
   "theorems": [
    "CP.C42_callers_stream",
    "CP.C42_path_partial",
    "CP.C42_exact",
    "CP.C42_failed_init",
    "CP.C42_counterexample"
   ],
   "note": "false for a file whose first read fails (it stays open): counterexample proved; proved for all else"
  },
  {
   "property": "C43",
   "status": "proved",
   "theorems": [
    "CP.C43_preparse_coherent"
   ],
   "note": "the regular expressions are modelled by a backtracking matcher; the class of digits is a parameter"
  },
  {
   "property": "C44",
   "status": "partial",
   "theorems": [
    "CP.C44_preparse_raises_partial",
    "CP.C44_counterexample"
   ],
   "note": "false when all lines are blank (IndexError): counterexample proved; proved that it raises only then"
  },
  {
   "property": "C45",
   "status": "partial",
   "theorems": [
    "CP.C45_columns_partial",
    "CP.C45_one_column_partial",
    "CP.C45_table_partial",
    "CP.C45_exact",
    "CP.C45_one_column_exact",
    "CP.C45_counterexample",
    "CP.C45_two_integers"
   ],
   "note": "false for integers separated by commas: counterexample proved; proved for tables where the decimal sign can be told; C45_exact, C45_one_column_exact: exactly those, the tables whose last line has fewer numbers with their decimal sign than with the other one (with the dot, no more)"
  },
  {
   "property": "C46",
   "status": "partial",
   "theorems": [
    "CP.C46_keywords_partial",
    "CP.C46_usecols_none",
    "CP.C46_counterexample",
    "CP.lazy_position"
   ],
   "note": "false for usecols=None with names inferred (TypeError): counterexample proved; proved for all else, and that TypeError is raised whenever this is so"
  },
  {
   "property": "C47",
   "status": "proved",
   "theorems": [
    "CP.C47_stream_content",
    "CP.C47_stream_readable",
    "CP.get_twice_raises"
   ],
   "note": "the third theorem records that a stream can be read once only"
  },
  {
   "property": "C48",
   "status": "partial",
   "theorems": [
    "CP.C48_open_ends",
    "CP.C48_get_ends_iff",
    "CP.C48_locate_ends_iff",
    "CP.C48_counterexample"
   ],
   "note": "false for short streams with a cyclic short sector table: counterexample proved; proved exactly when the calls terminate"
  },
  {
   "property": "C49",
   "status": "partial",
   "theorems": [
    "CP.C49_locate_agrees_partial",
    "CP.C49_locate_works",
    "CP.C49_exact",
    "CP.C49_counterexample"
   ],
   "note": "false with an incomplete last sector, or with ignore_workbook_corruption: counterexamples proved; proved else; C49_exact: exactly which incomplete sectors make a difference"
  },
  {
   "property": "C50",
   "status": "proved",
   "theorems": [
    "CP.C50_last_write_wins",
    "CP.C50_limits"
   ],
   "note": "cell numbers of formats within int16 with formatting_info"
  },
  {
   "property": "C51",
   "status": "partial",
   "theorems": [
    "CP.C51_cell_names_partial",
    "CP.C51_exact",
    "CP.C51_inverse",
    "CP.C51_counterexample"
   ],
   "note": "true for ASCII letters and digits; false for other text; C51_exact: what each text is taken for"
  },
  {
   "property": "C52",
   "status": "proved",
   "theorems": [
    "CP.C52_date_format",
    "CP.C52_quoted_ignored"
   ],
   "note": ""
  },
  {
   "property": "C53",
   "status": "proved",
   "theorems": [
    "CP.C53_datetime_tuple_roundtrip",
    "CP.C53_accepts"
   ],
   "note": "in binary64 arithmetic"
  },
  {
   "property": "C54",
   "status": "proved",
   "theorems": [
    "CP.C54_datetime_precision",
    "CP.C54_milliseconds"
   ],
   "note": "in binary64 arithmetic"
  },
  {
   "property": "C55",
   "status": "partial",
   "theorems": [
    "CP.C55_cellname_partial",
    "CP.C55_exact",
    "CP.C55_counterexample"
   ],
   "note": "false from column 702 (AAA) on, xlrd.colname raises IndexError there: counterexample proved; proved below"
  },
  {
   "property": "C56",
   "status": "proved",
   "theorems": [
    "CP.C56_given_names"
   ],
   "note": ""
  },
  {
   "property": "C57",
   "status": "proved",
   "theorems": [
    "CP.C57_lazy_table"
   ],
   "note": "float() of str is a parameter that reads the numbers"
  },
  {
   "property": "C58",
   "status": "proved",
   "theorems": [
    "CP.C58_search",
    "CP.C58_no_stream"
   ],
   "note": "str.lower is a parameter"
  },
  {
   "property": "C59",
   "status": "proved",
   "theorems": [
    "CP.C59_layout"
   ],
   "note": "decoding of UTF-16 is a parameter"
  },
  {
   "property": "C60",
   "status": "proved",
   "theorems": [
    "CP.C60_ragged"
   ],
   "note": "merged ranges left out, as in the property"
  },
  {
   "property": "C61",
   "status": "proved",
   "theorems": [
    "CP.C61_worksheet"
   ],
   "note": "for well-formed sheets as in the spec; the XML parser is not modelled"
  },
  {
   "property": "C62",
   "status": "proved",
   "theorems": [
    "CP.C62_strings",
    "CP.C62_escapes",
    "CP.C62_round_trip",
    "CP.C62_counterexample"
   ],
   "note": "the counterexample is about other writers"
  },
  {
   "property": "C63",
   "status": "proved",
   "theorems": [
    "CP.C63_styles",
    "CP.C63_no_styles"
   ],
   "note": ""
  },
  {
   "property": "C64",
   "status": "partial",
   "theorems": [
    "CP.C64_book",
    "CP.C64_exact",
    "CP.C64_counterexample"
   ],
   "note": "false for the relations of sheets, if stored under names with capitals; true otherwise (in the hypotheses: SheetRelsOk); C64_exact: a sound file is read exactly if these and the comments are stored under plain names, and a KeyError is raised otherwise"
  },
  {
   "property": "C65",
   "status": "proved",
   "theorems": [
    "CP.C65_rk",
    "CP.C65_double",
    "CP.C65_doubles",
    "CP.C65_rk_nearest"
   ],
   "note": "C65_rk for any rounding of the division by 100, C65_rk_nearest for binary64"
  },
  {
   "property": "C66",
   "status": "partial",
   "theorems": [
    "CP.C66_string",
    "CP.C66_shared_strings_partial",
    "CP.C66_exact",
    "CP.C66_split_counterexample",
    "CP.C66_phonetic_counterexample"
   ],
   "note": "false if a record ends within a character of two units, or if phonetic data goes on beyond the next record: counterexamples proved; proved otherwise; C66_exact: if it does not, exactly the tables without such an end of a record are read, and the others raise UnicodeDecodeError"
  },
  {
   "property": "C67",
   "status": "partial",
   "theorems": [
    "CP.C67_worksheet_partial",
    "CP.C67_exact",
    "CP.C67_parts",
    "CP.C67_counterexample",
    "CP.C67_astral_formula",
    "CP.C67_two_byte_formula"
   ],
   "note": "false for text results of formulas with characters that take more than one unit (BIFF 8) or byte (before): counterexamples proved; proved otherwise; C67_exact: without CONTINUE records that continue nothing (before BIFF 8 in a plain code page) exactly the sheets without such results are read, and the others raise XLRDError or what decoding raises; C67_parts: exactly which STRING and CONTINUE records are read as a text, for all records"
  },
  {
   "property": "C68",
   "status": "partial",
   "theorems": [
    "CP.C68_stream_partial",
    "CP.C68_any_formats",
    "CP.C68_types",
    "CP.C68_agree",
    "CP.C68_counterexample",
    "CP.C68_late_format",
    "CP.C68_unused_page"
   ],
   "note": "false if a FORMAT record comes after an XF record that uses it, and within the limits of C66 and C67: counterexamples proved; proved otherwise. C68_any_formats: with formats in any place the book is read, and numbers are dates by the format keys that were known when the XF record came, or format 0; C68_types: these types are right exactly if late formats are for dates just as format 0 is; C68_agree: then the book is read right. External references, names and notes are parameters"
  },
  {
   "property": "C69",
   "status": "proved",
   "theorems": [
    "CP.C69_document"
   ],
   "note": "the entry of the stream is among the first 250 (a mark of a sector is a byte), and the directory tree is not higher than the calls python allows"
  },
  {
   "property": "C70",
   "status": "partial",
   "theorems": [
    "CP.C70_file_partial",
    "CP.C70_stream",
    "CP.C70_any_formats",
    "CP.C70_agree",
    "CP.C70_counterexample"
   ],
   "note": "from the bytes of the file, by C69 and C68; false where C68 is (formats defined after use): counterexample proved; proved otherwise, within the limits of C66 to C69. C70_stream: whatever is in the stream, it is what is read of the file; C70_any_formats: files with formats in any place, with the types that the reader has; C70_agree: where these are right (exactly when: C68_types)"
  },
  {
   "property": "C71",
   "status": "partial",
   "theorems": [
    "CP.C71_file_partial",
    "CP.C71_whole_sheet_partial",
    "CP.C71_no_sheet",
    "CP.C71_any_formats",
    "CP.C71_unreadable",
    "CP.C71_counterexample"
   ],
   "note": "from the bytes of xls files and the parts of xlsx files (zipfile and the XML parser are a parameter) to data and names, by C64, C70 and C31; false where C70 is: counterexample proved; proved otherwise. C71_any_formats: what sheetpack gives for formats in any place; C71_unreadable: if the stream cannot be read, that is the exception of sheetpack"
  },
  {
   "property": "C72",
   "status": "proved",
   "theorems": [
    "CP.C72_name",
    "CP.C72_errors",
    "CP.C72_round_trip",
    "CP.C72_word_counterexample"
   ],
   "note": "split() of names that are not str and re.findall are parameters; C72_word_counterexample: first words need not lead back"
  },
  {
   "property": "C73",
   "status": "proved",
   "theorems": [
    "CP.C73_shows_all",
    "CP.C73_order_independent"
   ],
   "note": "repr of arrays and names are parameters"
  },
  {
   "property": "C74",
   "status": "proved",
   "theorems": [
    "CP.C74_attributes",
    "CP.C74_undeletable",
    "CP.C74_assign",
    "CP.C74_rejected",
    "CP.C74_regular",
    "CP.C74_counterexample"
   ],
   "note": "over the attributes of one object; C74_assign and C74_regular tie them to the value level model of a pack; C74_counterexample: the mask can be deleted, and a raising assignment then takes effect"
  },
  {
   "property": "C75",
   "status": "proved",
   "theorems": [
    "CP.C75_textpack",
    "CP.C75_lazy",
    "CP.C75_text_file",
    "CP.carriage_return_stream"
   ],
   "note": "the translation by text mode of io.open is modelled from its documentation (universal); codecs are any that leave the line ends alone (KeepsLineEnds)"
  },
  {
   "property": "C76",
   "status": "proved",
   "theorems": [
    "CP.C76_call",
    "CP.C76_window",
    "CP.C76_slice",
    "CP.C76_copy",
    "CP.C76_tune",
    "CP.C76_mask",
    "CP.C76_refresh",
    "CP.C76_stale_counterexample"
   ],
   "note": "Over histories of packs (World) interleaved with calls, slices and element writes; arrays are handed to packs whole; what numpy stores for a value is a parameter. C76_stale_counterexample: after pack.mask[1] = False parts still go by the old mask."
  },
  {
   "property": "C77",
   "status": "partial",
   "theorems": [
    "CP.C77_objects_partial",
    "CP.C77_book",
    "CP.C77_text_exact",
    "CP.C77_url_exact",
    "CP.C77_astral_url",
    "CP.C77_site_name",
    "CP.C77_other_moniker",
    "CP.C77_split_text",
    "CP.C77_counterexample"
   ],
   "note": "False as stated (C77_counterexample): a URL with a character beyond the BMP, a hyperlink with the flag for a display name but none in the record, a moniker of another kind together with a location, or a surrogate pair split between the records of a text makes the file unreadable. C77_objects_partial and C77_book have all the other hyperlinks, objects and notes, on top of the limits of C67 and C68. C77_text_exact: a text of an object is read exactly if no pair is split, otherwise UnicodeDecodeError. C77_url_exact: a hyperlink to a URL is read exactly if no character of it is beyond the BMP, or twelve are and nothing follows the URL in its moniker, otherwise AssertionError."
  },
  {
   "property": "C78",
   "status": "partial",
   "theorems": [
    "CP.C78_names_partial",
    "CP.C78_book",
    "CP.C78_functions",
    "CP.C78_unreadable",
    "CP.C78_counterexample"
   ],
   "note": "False as stated (C78_counterexample): C78_unreadable has eleven formulas of names, each with the exception that it makes of a book that is otherwise fine (1/0, a text added to or compared with a number, the sign of a text or a cell, CHOOSE with a number that is not worked out, a function without arguments in a larger formula, an array of constants as an argument, a name for itself, a union of unions, a range from an error). C78_names_partial has all other names: operators where the kinds of their operands allow it, the functions of the reader, names of names to ten levels, references to other sheets and books. C78_book is the same for books that also have the objects of C77: the reader of .xls streams is then modelled without a parameter but for rounding, the codecs, and the numbers of python (PyOps)."
  },
  {
   "property": "C79",
   "status": "proved",
   "theorems": [
    "CP.C79_xlsx"
   ],
   "note": "The reader of C64 with do_defined_names, process_coreprops and process_comments_stream in place of the parameters. Names: any formulas and attributes, numbers and flags as the schema has them. Core properties: anything. Comments: on cells, by authors in the list, with any texts. As for C64, the relations of a sheet are looked for under the name of its part in lower case."
  },
  {
   "property": "C80",
   "status": "partial",
   "theorems": [
    "CP.C80_file_partial",
    "CP.C80_whole_sheet_partial",
    "CP.C80_no_sheet_partial",
    "CP.C80_any_formats",
    "CP.C80_counterexample"
   ],
   "note": "False as stated (C80_counterexample, a file with the name 1/0). C80_file_partial and C80_whole_sheet_partial are C71 for the reader with all handlers in place (C77, C78, C79, C81), within the limits of these; parameters left are what python does (codecs, rounding, zip and XML, numbers in texts)."
  },
  {
   "property": "C81",
   "status": "partial",
   "theorems": [
    "CP.C81_old_partial",
    "CP.C81_exact",
    "CP.C81_counterexample"
   ],
   "note": "False as stated (C81_counterexample, a formula with a text of several bytes for a character). C81_old_partial is the statement for formula texts of one byte for each character; C81_exact: a file without stray CONTINUE records, in known code pages, is read exactly if its formula texts are such, and otherwise raises XLRDError or the error of the codec; handlers of objects are a parameter that meets its specification (put in place by C80)."
  },
  {
   "property": "C82",
   "status": "partial",
   "theorems": [
    "CP.C82_duration_partial",
    "CP.C82_exact",
    "CP.C82_whole",
    "CP.C82_counterexample"
   ],
   "note": "False as stated (C82_counterexample: duration(0.29, samplerate=100) keeps a part of 28 samples). C82_duration_partial: parts that last d seconds are kept, and those kept are less than 1.5 samples short; C82_exact: for which numbers it is right for all packs; C82_whole: right if d and r are floats exactly and d*r is a whole number."
  },
  {
   "property": "C83",
   "status": "proved",
   "theorems": [
    "CP.C83_numbers_in_text",
    "CP.pyFloat_numeral"
   ],
   "note": "float(text) is modelled from its documentation (Model/PyFloat.lean), with a table of the digits of Unicode as a parameter"
  },
  {
   "property": "C84",
   "status": "proved",
   "theorems": [
    "CP.C84_dbf_numbers",
    "CP.C84_xlsx_numbers",
    "CP.floatBytes_numeral"
   ],
   "note": "float of bytes and of str are modelled from their documentation (Model/PyFloat.lean). For xlsx files the theorem is about a cell; sheets and books are made of such cells (C61, C64)."
  },
  {
   "property": "C85",
   "status": "partial",
   "theorems": [
    "CP.C85_int_masks_partial",
    "CP.C85_without_startstop",
    "CP.C85_parts",
    "CP.C85_iand_exact",
    "CP.C85_filter",
    "CP.C85_counterexample",
    "CP.C85_counterexample_startstop"
   ],
   "note": "False as stated (C85_counterexample: with the mask 1, 0, 1 the filter gives elements 1, 0 and 1; C85_counterexample_startstop: 2 & True is 0). C85_int_masks_partial: right for masks of 0 and odd numbers, all but nof=\"filter\"; C85_without_startstop: for all integers without startstop; C85_iand_exact, C85_filter: exactly what startstop and filter do."
  },
  {
   "property": "C86",
   "status": "partial",
   "theorems": [
    "CP.C86_masking_keeps_data_partial",
    "CP.C86_only_mask",
    "CP.C86_exact",
    "CP.C86_sensible",
    "CP.C86_counterexample",
    "CP.C86_what_happens"
   ],
   "note": "False as stated (C86_counterexample: after p.mask = p(1) the mask is the array of channel 1, and p.mindur = 3, p.duration(3) and p.startstop write into the channel). C86_masking_keeps_data_partial: true in all programs if the mask is no channel; C86_only_mask, C86_exact: only the array that is the mask is written to; C86_sensible: programs that use no array both as a mask and for something else never do it."
  },
  {
   "property": "C87",
   "status": "partial",
   "theorems": [
    "CP.C87_records",
    "CP.C87_records_fixed_partial",
    "CP.C87_now",
    "CP.C87_pure",
    "CP.C87_counterexample",
    "CP.C87_counterexample_write"
   ],
   "note": "False as stated (C87_counterexample: nof set between records() and the first next counts; C87_counterexample_write: a write to the array of a channel shows in records to come). C87_records: the records are those of the pack at the first next, in all interleavings, for data as masked whatever is done and else if the channels are not written to nor made masks; C87_records_fixed_partial: so with respect to the call; C87_now: what records hold whatever is done, row by row what the arrays that the generator took hold of at the first next hold at each step; C87_pure: iterating changes nothing."
  },
  {
   "property": "C88",
   "status": "partial",
   "theorems": [
    "CP.C88_numbers_understood_partial",
    "CP.C88_exact",
    "CP.C88_counterexample",
    "CP.C88_words",
    "CP.C88_blank",
    "CP.pyFloat_iff",
    "CP.pyFloatB_iff"
   ],
   "note": "False as stated (C88_counterexample: 1 with 1,5 below it is ValueError, though \"numeric fields with decimal comma are understood as numeric\"). C88_numbers_understood_partial: true for tables in which the comma, if used, is seen in the first line of data; C88_exact: a table is read exactly if its fields mean something and this holds. pyFloat_iff: the model of float gives a value for exactly the texts of an independent grammar."
  },
  {
   "property": "C89",
   "status": "partial",
   "theorems": [
    "CP.C89_numbers_partial",
    "CP.C89_comma",
    "CP.C89_exact",
    "CP.C89_counterexample"
   ],
   "note": "False as stated (C89_counterexample: a file with the line hello 1 world gives a channel with the text hello, as the check of the last line looks at a blank one). C89_comma: true whenever a decimal comma is inferred; C89_exact: else each channel is all floats or all text, by its field in the first line of data; C89_numbers_partial: so true if that line has numbers only."
  },
  {
   "property": "C90",
   "status": "partial",
   "theorems": [
    "CP.C90_long_partial",
    "CP.C90_exact",
    "CP.C90_counterexample"
   ],
   "note": "False as stated (C90_counterexample: duration(inf, mindur=False) raises OverflowError). C90_exact: which numbers are taken, with which product and effect, which exception is raised else, and that nothing is changed then; C90_long_partial: true for all ints and for finite floats with a product below the limit of floats, for masks of less than 2**53 samples."
  },
  {
   "property": "C91",
   "status": "partial",
   "theorems": [
    "CP.C91_fallback_partial",
    "CP.C91_exact",
    "CP.C91_names",
    "CP.C91_counterexample",
    "CP.C91_long_counterexample"
   ],
   "note": "False as stated (C91_counterexample: pack of ch0_speed finds channel 0; C91_long_counterexample: 4301 digits raise ValueError). C91_exact: what is found and which exception is raised, for every str that is not a name; C91_names: names and ints, and agreement with the model of C15; C91_fallback_partial: true if what follows the prefix is a number as str() writes it or does not begin with a digit."
  },
  {
   "property": "C92",
   "status": "partial",
   "theorems": [
    "CP.C92_values_partial",
    "CP.C92_exact",
    "CP.C92_text",
    "CP.C92_counterexample"
   ],
   "note": "False as stated (C92_counterexample: 1 beside the text a is the text 1). C92_exact: the values are held exactly if there is an object (None, a date, an int beyond 64 bits) among them, or all are text without NUL at the end, or all are such bytes, or all are numbers with no int that has to be rounded; C92_text: beside text without objects all is text; C92_values_partial: packs of such values."
  },
  {
   "property": "C93",
   "status": "partial",
   "theorems": [
    "CP.C93_text_partial",
    "CP.C93_exact",
    "CP.C93_kinds",
    "CP.C93_counterexample"
   ],
   "note": "False as stated (C93_counterexample: a NUL at the end of text is lost). C93_kinds: the values of a channel are all floats, all str or all bytes; C93_text_partial: true without NULs at the end of text. C93_exact: what the channels hold for every file that is read, so true exactly without such NULs."
  },
  {
   "property": "C94",
   "status": "partial",
   "theorems": [
    "CP.C94_dbf_partial",
    "CP.C94_exact",
    "CP.C94_kinds",
    "CP.C94_compatible",
    "CP.C94_counterexample"
   ],
   "note": "False as stated (C94_counterexample: 9007199254740993 in a field with a missing number becomes 9007199254740992). C94_kinds: the values of a channel are those of one type of field; C94_dbf_partial: true with integers up to 2^53 and text without NUL at the end. C94_exact: what the channels hold for every file that is read, and exactly when this is what was read."
  },
  {
   "property": "C95",
   "status": "partial",
   "theorems": [
    "CP.C95_sheet_partial",
    "CP.C95_exact",
    "CP.C95_kinds",
    "CP.C95_counterexample"
   ],
   "note": "False as stated (C95_counterexample: TRUE beside text is the text True). C95_exact: a channel is held exactly if it is of numbers and booleans, of text without NUL at the end, or has a date or an empty cell among its cells; C95_sheet_partial: true of sheets with such columns."
  },
  {
   "property": "C96",
   "status": "partial",
   "theorems": [
    "CP.C96_append_partial",
    "CP.C96_exact",
    "CP.C96_arrays",
    "CP.C96_counterexample"
   ],
   "note": "False as stated (C96_counterexample: numbers become text if text is appended). C96_exact: the values are kept exactly if the arrays are of one type, or one is of objects, or each keeps its values (no values, or text, or bytes beside no text, or numbers beside numbers with no int to be rounded); C96_arrays: the arrays that packs make of lists are among those the theorem is about; C96_append_partial: append_pack of packs with such arrays."
  },
  {
   "property": "C97",
   "status": "partial",
   "theorems": [
    "CP.C97_file_partial",
    "CP.C97_exact",
    "CP.C97_cells",
    "CP.C97_counterexample"
   ],
   "note": "False as stated (C97_counterexample: beside text, TRUE is the text True). C97_exact: the values of a column are in its channel if and only if there is no text in the column, or a date is, or there is text alone that does not end with a NUL, or beside numbers or booleans some cell is empty; C97_cells: cells of files have values of their types; C97_file_partial: the columns that are held."
  },
  {
   "property": "C98",
   "status": "proved",
   "theorems": [
    "CP.C98_sheetpack_iff",
    "CP.C98_sheetpack_raises",
    "CP.C98_cell",
    "CP.C98_number",
    "CP.C98_years",
    "CP.C98_bounds"
   ],
   "note": "C98_sheetpack_iff: when there is a pack; C98_sheetpack_raises: what is raised and for which cell; C98_cell, C98_number: one cell, one number; C98_years: the bounds as numbers, with the multiplication of the code; C98_bounds: they are the days they are said to be."
  },
  {
   "property": "C99",
   "status": "partial",
   "theorems": [
    "CP.C99_line_partial",
    "CP.C99_exact",
    "CP.C99_printed",
    "CP.C99_numbers",
    "CP.C99_counterexample"
   ],
   "note": "False as stated (C99_counterexample: blank lines are not counted; with the names in the file the number is one too small). C99_exact: the number printed is that of the last line read, less the blank lines above it in the data, less one if the names are in the file; C99_printed: a number is printed if and only if the read fails and the first line of data can be read; C99_line_partial: right without blank lines and without names in the file."
  }
 ]
}
