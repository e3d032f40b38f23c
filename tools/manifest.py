#!/usr/bin/env python3
"""Source of /verif/MANIFEST.json (run: python3 tools/manifest.py)."""
import json, os
C = []
def c(prop, status, theorems, note=''):
    C.append(dict(property=prop, status=status,
                  theorems=['CP.' + t for t in theorems.split()], note=note))

c('C01', 'proved', 'C01_startstop_semantics C01_startstop_method')
c('C02', 'proved', 'C02_startstop_causal')
c('C03', 'proved', 'C03_slices_are_maximal_runs C03_true_in_exactly_one')
c('C04', 'proved', 'C04_parts_partition_filter')
c('C05', 'proved', 'C05_min_duration truncRat_spec',
  'duration*samplerate is taken as its (float) value; float multiplication is not modelled')
c('C06', 'proved', 'C06_max_duration truncRat_spec')
c('C07', 'proved', 'C07_duration_composes')
c('C08', 'partial', 'C08_masked_exact C08_nan_masking_partial C08_counterexample C08_exact C08_nearest',
  'as stated it is false for integers above 2^53 (upcast to float64): counterexample proved; '
  'proved for smaller ones, and an exact characterisation with the upcast for all')
c('C09', 'proved', 'C09_parts_reflect_mask')
c('C10', 'proved', 'C10_mindur_persistent')
c('C11', 'partial', 'C11_mask_reset_partial C11_exact C11_counterexample',
  'false when the lowest channel holds NaN: counterexample proved; proved without NaN, and exactly what the mask '
  'is for all packs')
c('C12', 'proved', 'C12_append_concatenates C12_append_many')
c('C13', 'partial', 'C13_append_atomic_partial C13_exact C13_counterexample',
  'false when the names do not align: counterexample proved; proved when names align, and exactly when ValueError '
  'is raised and what is changed then')
c('C15', 'proved', 'C15_lookup_order C15_resolution_unique',
  'FALLBACK_PREFIX taken literally (no regex special characters), ASCII digits')
c('C16', 'proved', 'C16_fallback_roundtrip C16_fallback_name_exists')
c('C17', 'proved', 'C17_nof_dispatch')
c('C18', 'proved', 'C18_part_argument')
c('C19', 'proved', 'C19_records_agree')
c('C20', 'proved', 'C20_only_int_keys C20_oneshot_counterexample C20_iterator_item_counterexample',
  'dicts, sequences of sequences (also iterators for data); the counterexamples show shapes outside the claim')
c('C21', 'partial', 'C21_npdict_update C21_intkeydict_update_partial C21_exact C21_counterexample C21_oneshot_is_lost',
  'proved for data (NpDict); for names (IntKeyDict) false with one-shot iterators: counterexample proved, proved for dicts and lists')
c('C22', 'proved', 'C22_intkeydict_rejected C22_npdict_rejected')
c('C23', 'proved', 'C23_filenames_consistent')
c('C24', 'proved', 'C24_dbf_decoded',
  'float() of bytes is a parameter; a table without live records has names but no channels')
c('C25', 'partial', 'C25_selection_partial C25_exact C25_places C25_counterexample C25_str_partial C25_str_counterexample',
  'false with deleted records unless the last field is selected: counterexample proved; proved for files '
  'where only the last record may be deleted, and for selections with the last field; C25_exact: which places of the file are '
  'read as records in general, C25_places: there are such places in every file')
c('C26', 'proved', 'C26_missing_values C26_empty_logical_is_true')
c('C27', 'proved', 'C27_bijection C27_order C27_case_and_rejection',
  'str.upper is a parameter that is right on ASCII')
c('C28', 'proved', 'C28_cell_references C28_trailing_text_is_ignored',
  'ASCII digits; the second theorem records that text after the address is ignored')
c('C29', 'proved', 'C29_usecols_strings C29_usecols_sequences')
c('C30', 'proved', 'C30_columns_typed')
c('C31', 'proved', 'C31_sheetpack_range C31_sheetpack_accepts')
c('C32', 'proved', 'C32_serial_days', 'float products are parameters with the stated sanity property, which binary64 has (ieeeMul_sane)')
c('C33', 'proved', 'C33_accepted C33_roundtrip')
c('C34', 'proved', 'C34_time_of_day C34_exact C34_ieee', 'C34_time_of_day for any rounding of the products with the stated sanity property, C34_ieee for binary64')
c('C35', 'proved', 'C35_datetime_agrees C35_day60_collides')
c('C36', 'proved', 'C36_errors C36_last_half_second',
  'the day meant is the one after rounding to a second; the second theorem shows the effect just below day 1')
c('C37', 'partial', 'C37_table_read_partial C37_lines C37_exact C37_tab_line_counterexample',
  'false for a line of tabs only without a delimiter: counterexample proved; proved for blank lines of the '
  'other whitespace, and rows that are not blank; C37_exact: without a delimiter, which blank lines are taken for rows, and '
  'what is read with and without them; float() of str is a parameter')
c('C38', 'partial', 'C38_usecols_partial C38_exact C38_counterexample',
  'false for usecols that are not increasing: counterexample proved; proved for increasing ones, any stream, and '
  'exactly where the columns go for distinct ones in any order')
c('C39', 'partial', 'C39_names_partial C39_names_selected_partial C39_exact C39_counterexample',
  'false for usecols that are not increasing: counterexample proved; proved without usecols and with increasing '
  'ones; C39_exact: which names there are for others, and exactly when they are right')
c('C40', 'partial', 'C40_debug_partial C40_exact C40_counterexample C40_debug_hides_error',
  'false for lines shorter than the first: counterexample proved; proved else, and for all streams that debug only '
  'adds shorter columns')
c('C42', 'partial', 'C42_callers_stream C42_path_partial C42_exact C42_failed_init C42_counterexample',
  'false for a file whose first read fails (it stays open): counterexample proved; proved for all else')
c('C41', 'proved', 'C41_column_types', 'float() of str is a parameter')
c('C43', 'proved', 'C43_preparse_coherent', 'the regular expressions are modelled by a backtracking matcher; the class of digits is a parameter')
c('C44', 'partial', 'C44_preparse_raises_partial C44_counterexample',
  'false when all lines are blank (IndexError): counterexample proved; proved that it raises only then')
c('C45', 'partial', 'C45_columns_partial C45_one_column_partial C45_table_partial C45_exact C45_one_column_exact C45_counterexample C45_two_integers',
  'false for integers separated by commas: counterexample proved; proved for tables where the decimal sign can be told; C45_exact, C45_one_column_exact: exactly those, the tables whose last line has fewer numbers with their decimal sign than with the other one (with the dot, no more)')
c('C46', 'partial', 'C46_keywords_partial C46_usecols_none C46_counterexample lazy_position',
  'false for usecols=None with names inferred (TypeError): counterexample proved; proved for all else, and that TypeError is raised whenever this is so')
c('C47', 'proved', 'C47_stream_content C47_stream_readable get_twice_raises',
  'the third theorem records that a stream can be read once only')
c('C48', 'partial', 'C48_open_ends C48_get_ends_iff C48_locate_ends_iff C48_counterexample',
  'false for short streams with a cyclic short sector table: counterexample proved; proved exactly when the calls terminate')
c('C49', 'partial', 'C49_locate_agrees_partial C49_locate_works C49_exact C49_counterexample',
  'false with an incomplete last sector, or with ignore_workbook_corruption: counterexamples proved; proved else; C49_exact: exactly which incomplete sectors make a difference')
c('C58', 'proved', 'C58_search C58_no_stream', 'str.lower is a parameter')
c('C59', 'proved', 'C59_layout', 'decoding of UTF-16 is a parameter')
c('C57', 'proved', 'C57_lazy_table', 'float() of str is a parameter that reads the numbers')
c('C53', 'proved', 'C53_datetime_tuple_roundtrip C53_accepts', 'in binary64 arithmetic')
c('C54', 'proved', 'C54_datetime_precision C54_milliseconds', 'in binary64 arithmetic')
c('C55', 'partial', 'C55_cellname_partial C55_exact C55_counterexample',
  'false from column 702 (AAA) on, xlrd.colname raises IndexError there: counterexample proved; proved below')
c('C56', 'proved', 'C56_given_names')
c('C50', 'proved', 'C50_last_write_wins C50_limits', 'cell numbers of formats within int16 with formatting_info')
c('C52', 'proved', 'C52_date_format C52_quoted_ignored')
c('C60', 'proved', 'C60_ragged', 'merged ranges left out, as in the property')
c('C51', 'partial', 'C51_cell_names_partial C51_exact C51_inverse C51_counterexample', 'true for ASCII letters and digits; false for other text; C51_exact: what each text is taken for')
c('C61', 'proved', 'C61_worksheet', 'for well-formed sheets as in the spec; the XML parser is not modelled')
c('C62', 'proved', 'C62_strings C62_escapes C62_round_trip C62_counterexample', 'the counterexample is about other writers')
c('C63', 'proved', 'C63_styles C63_no_styles')
c('C64', 'partial', 'C64_book C64_exact C64_counterexample', 'false for the relations of sheets, if stored under names with capitals; true otherwise (in the hypotheses: SheetRelsOk); C64_exact: a sound file is read exactly if these and the comments are stored under plain names, and a KeyError is raised otherwise')
c('C14', 'partial', 'C14_independent_partial C14_exact C14_receiver C14_others C14_new C14_sharing C14_masks C14_reachable C14_counterexample C14_mask_counterexample',
  'false after appending to an empty pack: counterexample proved; proved for programs where no dict gets shared, and for all what exactly sharing can change. C14_exact: a pack is left alone by whatever is done to another one exactly if they have no dict in common')
c('C65', 'proved', 'C65_rk C65_double C65_doubles C65_rk_nearest', 'C65_rk for any rounding of the division by 100, C65_rk_nearest for binary64')
c('C66', 'partial', 'C66_string C66_shared_strings_partial C66_exact C66_split_counterexample C66_phonetic_counterexample',
  'false if a record ends within a character of two units, or if phonetic data goes on beyond the next record: counterexamples proved; proved otherwise; C66_exact: if it does not, exactly the tables without such an end of a record are read, and the others raise UnicodeDecodeError')
c('C67', 'partial', 'C67_worksheet_partial C67_exact C67_parts C67_counterexample C67_astral_formula C67_two_byte_formula',
  'false for text results of formulas with characters that take more than one unit (BIFF 8) or byte (before): counterexamples proved; proved otherwise; C67_exact: without CONTINUE records that continue nothing (before BIFF 8 in a plain code page) exactly the sheets without such results are read, and the others raise XLRDError or what decoding raises; C67_parts: exactly which STRING and CONTINUE records are read as a text, for all records')
c('C68', 'partial', 'C68_stream_partial C68_any_formats C68_types C68_agree C68_counterexample C68_late_format C68_unused_page',
  'false if a FORMAT record comes after an XF record that uses it, and within the limits of C66 and C67: counterexamples proved; proved otherwise. C68_any_formats: with formats in any place the book is read, and numbers are dates by the format keys that were known when the XF record came, or format 0; C68_types: these types are right exactly if late formats are for dates just as format 0 is; C68_agree: then the book is read right. External references, names and notes are parameters')
c('C69', 'proved', 'C69_document',
  'the entry of the stream is among the first 250 (a mark of a sector is a byte), and the directory tree is not higher than the calls python allows')
c('C70', 'partial', 'C70_file_partial C70_stream C70_any_formats C70_agree C70_counterexample',
  'from the bytes of the file, by C69 and C68; false where C68 is (formats defined after use): counterexample proved; proved otherwise, within the limits of C66 to C69. C70_stream: whatever is in the stream, it is what is read of the file; C70_any_formats: files with formats in any place, with the types that the reader has; C70_agree: where these are right (exactly when: C68_types)')
c('C71', 'partial', 'C71_file_partial C71_whole_sheet_partial C71_no_sheet C71_any_formats C71_unreadable C71_counterexample',
  'from the bytes of xls files and the parts of xlsx files (zipfile and the XML parser are a parameter) to data and names, by C64, C70 and C31; false where C70 is: counterexample proved; proved otherwise. C71_any_formats: what sheetpack gives for formats in any place; C71_unreadable: if the stream cannot be read, that is the exception of sheetpack')
c('C72', 'proved', 'C72_name C72_errors C72_round_trip C72_word_counterexample',
  'split() of names that are not str and re.findall are parameters; C72_word_counterexample: first words need not lead back')
c('C73', 'proved', 'C73_shows_all C73_order_independent',
  'repr of arrays and names are parameters')
c('C74', 'proved', 'C74_attributes C74_undeletable C74_assign C74_rejected C74_regular C74_counterexample',
  'over the attributes of one object; C74_assign and C74_regular tie them to the value level model of a pack; C74_counterexample: the mask can be deleted, and a raising assignment then takes effect')
c('C75', 'proved', 'C75_textpack C75_lazy C75_text_file carriage_return_stream',
  'the translation by text mode of io.open is modelled from its documentation (universal); codecs are any that leave the line ends alone (KeepsLineEnds)')
c('C76', 'proved', 'C76_call C76_window C76_slice C76_copy C76_tune C76_mask C76_refresh C76_stale_counterexample',
  'Over histories of packs (World) interleaved with calls, slices and element writes; arrays are handed to packs whole; what numpy stores for a value is a parameter. C76_stale_counterexample: after pack.mask[1] = False parts still go by the old mask.')
c('C77', 'partial', 'C77_objects_partial C77_book C77_text_exact C77_url_exact C77_astral_url C77_site_name C77_other_moniker C77_split_text C77_counterexample',
  'False as stated (C77_counterexample): a URL with a character beyond the BMP, a hyperlink with the flag for a display name but none in the record, a moniker of another kind together with a location, or a surrogate pair split between the records of a text makes the file unreadable. C77_objects_partial and C77_book have all the other hyperlinks, objects and notes, on top of the limits of C67 and C68. C77_text_exact: a text of an object is read exactly if no pair is split, otherwise UnicodeDecodeError. C77_url_exact: a hyperlink to a URL is read exactly if no character of it is beyond the BMP, or twelve are and nothing follows the URL in its moniker, otherwise AssertionError.')
c('C78', 'partial', 'C78_names_partial C78_book C78_functions C78_unreadable C78_counterexample',
  'False as stated (C78_counterexample): C78_unreadable has eleven formulas of names, each with the exception that it makes of a book that is otherwise fine (1/0, a text added to or compared with a number, the sign of a text or a cell, CHOOSE with a number that is not worked out, a function without arguments in a larger formula, an array of constants as an argument, a name for itself, a union of unions, a range from an error). C78_names_partial has all other names: operators where the kinds of their operands allow it, the functions of the reader, names of names to ten levels, references to other sheets and books. C78_book is the same for books that also have the objects of C77: the reader of .xls streams is then modelled without a parameter but for rounding, the codecs, and the numbers of python (PyOps).')
c('C79', 'proved', 'C79_xlsx',
  'The reader of C64 with do_defined_names, process_coreprops and process_comments_stream in place of the parameters. Names: any formulas and attributes, numbers and flags as the schema has them. Core properties: anything. Comments: on cells, by authors in the list, with any texts. As for C64, the relations of a sheet are looked for under the name of its part in lower case.')
c('C80', 'partial', 'C80_file_partial C80_whole_sheet_partial C80_no_sheet_partial C80_any_formats C80_counterexample',
  'False as stated (C80_counterexample, a file with the name 1/0). C80_file_partial and C80_whole_sheet_partial are C71 for the reader with all handlers in place (C77, C78, C79, C81), within the limits of these; parameters left are what python does (codecs, rounding, zip and XML, numbers in texts).')
c('C81', 'partial', 'C81_old_partial C81_exact C81_counterexample',
  'False as stated (C81_counterexample, a formula with a text of several bytes for a character). C81_old_partial is the statement for formula texts of one byte for each character; C81_exact: a file without stray CONTINUE records, in known code pages, is read exactly if its formula texts are such, and otherwise raises XLRDError or the error of the codec; handlers of objects are a parameter that meets its specification (put in place by C80).')
c('C82', 'partial', 'C82_duration_partial C82_exact C82_whole C82_counterexample',
  'False as stated (C82_counterexample: duration(0.29, samplerate=100) keeps a part of 28 samples). C82_duration_partial: parts that last d seconds are kept, and those kept are less than 1.5 samples short; C82_exact: for which numbers it is right for all packs; C82_whole: right if d and r are floats exactly and d*r is a whole number.')
c('C83', 'proved', 'C83_numbers_in_text pyFloat_numeral', 'float(text) is modelled from its documentation (Model/PyFloat.lean), with a table of the digits of Unicode as a parameter')
c('C84', 'proved', 'C84_dbf_numbers C84_xlsx_numbers floatBytes_numeral', 'float of bytes and of str are modelled from their documentation (Model/PyFloat.lean). For xlsx files the theorem is about a cell; sheets and books are made of such cells (C61, C64).')
c('C85', 'partial', 'C85_int_masks_partial C85_without_startstop C85_parts C85_iand_exact C85_filter C85_counterexample C85_counterexample_startstop',
  'False as stated (C85_counterexample: with the mask 1, 0, 1 the filter gives elements 1, 0 and 1; C85_counterexample_startstop: 2 & True is 0). C85_int_masks_partial: right for masks of 0 and odd numbers, all but nof="filter"; C85_without_startstop: for all integers without startstop; C85_iand_exact, C85_filter: exactly what startstop and filter do.')
c('C86', 'partial', 'C86_masking_keeps_data_partial C86_only_mask C86_exact C86_sensible C86_counterexample C86_what_happens',
  'False as stated (C86_counterexample: after p.mask = p(1) the mask is the array of channel 1, and p.mindur = 3, p.duration(3) and p.startstop write into the channel). C86_masking_keeps_data_partial: true in all programs if the mask is no channel; C86_only_mask, C86_exact: only the array that is the mask is written to; C86_sensible: programs that use no array both as a mask and for something else never do it.')
c('C87', 'partial', 'C87_records C87_records_fixed_partial C87_now C87_pure C87_counterexample C87_counterexample_write',
  'False as stated (C87_counterexample: nof set between records() and the first next counts; C87_counterexample_write: a write to the array of a channel shows in records to come). C87_records: the records are those of the pack at the first next, in all interleavings, for data as masked whatever is done and else if the channels are not written to nor made masks; C87_records_fixed_partial: so with respect to the call; C87_now: what records hold whatever is done, row by row what the arrays that the generator took hold of at the first next hold at each step; C87_pure: iterating changes nothing.')
c('C88', 'partial', 'C88_numbers_understood_partial C88_exact C88_counterexample C88_words C88_blank pyFloat_iff pyFloatB_iff',
  'False as stated (C88_counterexample: 1 with 1,5 below it is ValueError, though "numeric fields with decimal comma are understood as numeric"). C88_numbers_understood_partial: true for tables in which the comma, if used, is seen in the first line of data; C88_exact: a table is read exactly if its fields mean something and this holds. pyFloat_iff: the model of float gives a value for exactly the texts of an independent grammar.')
c('C89', 'partial', 'C89_numbers_partial C89_comma C89_exact C89_counterexample',
  'False as stated (C89_counterexample: a file with the line hello 1 world gives a channel with the text hello, as the check of the last line looks at a blank one). C89_comma: true whenever a decimal comma is inferred; C89_exact: else each channel is all floats or all text, by its field in the first line of data; C89_numbers_partial: so true if that line has numbers only.')
c('C90', 'partial', 'C90_long_partial C90_exact C90_counterexample',
  'False as stated (C90_counterexample: duration(inf, mindur=False) raises OverflowError). C90_exact: which numbers are taken, with which product and effect, which exception is raised else, and that nothing is changed then; C90_long_partial: true for all ints and for finite floats with a product below the limit of floats, for masks of less than 2**53 samples.')
c('C91', 'partial', 'C91_fallback_partial C91_exact C91_names C91_counterexample C91_long_counterexample',
  'False as stated (C91_counterexample: pack of ch0_speed finds channel 0; C91_long_counterexample: 4301 digits raise ValueError). C91_exact: what is found and which exception is raised, for every str that is not a name; C91_names: names and ints, and agreement with the model of C15; C91_fallback_partial: true if what follows the prefix is a number as str() writes it or does not begin with a digit.')
c('C92', 'partial', 'C92_values_partial C92_exact C92_text C92_counterexample',
  'False as stated (C92_counterexample: 1 beside the text a is the text 1). C92_exact: the values are held exactly if there is an object (None, a date, an int beyond 64 bits) among them, or all are text without NUL at the end, or all are such bytes, or all are numbers with no int that has to be rounded; C92_text: beside text without objects all is text; C92_values_partial: packs of such values.')
c('C93', 'partial', 'C93_text_partial C93_exact C93_kinds C93_counterexample',
  'False as stated (C93_counterexample: a NUL at the end of text is lost). C93_kinds: the values of a channel are all floats, all str or all bytes; C93_text_partial: true without NULs at the end of text. C93_exact: what the channels hold for every file that is read, so true exactly without such NULs.')
c('C94', 'partial', 'C94_dbf_partial C94_exact C94_kinds C94_compatible C94_counterexample',
  'False as stated (C94_counterexample: 9007199254740993 in a field with a missing number becomes 9007199254740992). C94_kinds: the values of a channel are those of one type of field; C94_dbf_partial: true with integers up to 2^53 and text without NUL at the end. C94_exact: what the channels hold for every file that is read, and exactly when this is what was read.')
c('C95', 'partial', 'C95_sheet_partial C95_exact C95_kinds C95_counterexample',
  'False as stated (C95_counterexample: TRUE beside text is the text True). C95_exact: a channel is held exactly if it is of numbers and booleans, of text without NUL at the end, or has a date or an empty cell among its cells; C95_sheet_partial: true of sheets with such columns.')
c('C96', 'partial', 'C96_append_partial C96_exact C96_arrays C96_counterexample',
  'False as stated (C96_counterexample: numbers become text if text is appended). C96_exact: the values are kept exactly if the arrays are of one type, or one is of objects, or each keeps its values (no values, or text, or bytes beside no text, or numbers beside numbers with no int to be rounded); C96_arrays: the arrays that packs make of lists are among those the theorem is about; C96_append_partial: append_pack of packs with such arrays.')
c('C97', 'partial', 'C97_file_partial C97_exact C97_cells C97_counterexample',
  'False as stated (C97_counterexample: beside text, TRUE is the text True). C97_exact: the values of a column are in its channel if and only if there is no text in the column, or a date is, or there is text alone that does not end with a NUL, or beside numbers or booleans some cell is empty; C97_cells: cells of files have values of their types; C97_file_partial: the columns that are held.')
c('C98', 'proved', 'C98_sheetpack_iff C98_sheetpack_raises C98_cell C98_number C98_years C98_bounds',
  'C98_sheetpack_iff: when there is a pack; C98_sheetpack_raises: what is raised and for which cell; C98_cell, C98_number: one cell, one number; C98_years: the bounds as numbers, with the multiplication of the code; C98_bounds: they are the days they are said to be.')
c('C99', 'partial', 'C99_line_partial C99_exact C99_printed C99_numbers C99_counterexample',
  'False as stated (C99_counterexample: blank lines are not counted; with the names in the file the number is one too small). C99_exact: the number printed is that of the last line read, less the blank lines above it in the data, less one if the names are in the file; C99_printed: a number is printed if and only if the read fails and the first line of data can be read; C99_line_partial: right without blank lines and without names in the file.')
c('C100', 'partial', 'C100_records_partial C100_exact C100_lookup C100_foreign C100_accepts C100_counterexample',
  'False as stated with fallback=True when a channel is named like the fallback name of another (C100_counterexample; C100_foreign: such a field holds the channel of that name). C100_records_partial: true without fallback, and with fallback when there is no such name; C100_lookup: in general the column of a field is the channel its name leads to; C100_exact: for channels of equal length, exactly when each channel whose fallback name is the name of another has the values of that one; C100_accepts: exactly when there are records.')
c('C101', 'partial', 'C101_fits_partial C101_step C101_filters C101_new C101_what_happens C101_counterexample C101_append_counterexample',
  'False as stated (C101_counterexample: channels put into an empty pack one by one have no mask; C101_append_counterexample: an append that raises for the names). C101_step: exactly after which operations the mask fits; C101_fits_partial: so for histories of these; C101_filters: fitting is the same as that all channels can be filtered.')
c('C102', 'proved', 'C102_column C102_row C102_rows C102_shaped C102_readxl',
  'For item access only integers and pairs of integers are modelled.')
c('C103', 'partial', 'C103_index_partial C103_values C103_format C103_exact C103_counterexample',
  'False as stated (C103_counterexample: with formatting_info an empty cell of a formatted row has another xf_index when found by a negative row index). C103_index_partial: so without formatting_info; C103_values: always for values and types; C103_exact: exactly when.')
c('C104', 'partial', 'C104_name_cells_partial C104_exact C104_wrong_exceptions C104_counterexample',
  'False as stated (C104_wrong_exceptions: for =S!$A$1:OFFSET(S!$A$1,1,0) area2d and cell raise TypeError, for =S!$A$1:#REF! AttributeError). C104_name_cells_partial: all that is said about names for areas; C104_exact: exactly which results give another exception than XLRDError, for all records and formulas whatever their bytes (the boxes of all results are shown to be of sheets that are there).')
c('C105', 'partial', 'C105_areas C105_cells_partial C105_exact C105_distinct C105_ranges_partial C105_wrong_cells C105_counterexample',
  'False as stated if only the row or only the column of the base cell is given (C105_wrong_cells: cellnamerel(4, 1, 0, 1, None, 2) is DR5, the name of another cell). C105_areas: all of it for fixed references; C105_cells_partial, C105_ranges_partial: relative ones with the base given in full or not at all; C105_exact: exactly which cells have their names.')
c('C106', 'proved', 'C106_by_index C106_by_name C106_all C106_get C106_unload C106_names C106_loaded C106_first C106_number',
  'Books in any state that any calls lead to. C106_loaded with C106_first tells which sheets are loaded after any calls. Reading a sheet is a parameter, with what of the book it looks at and changes; C107 fills it in for xls files. C106_number: the attribute number is what the sheet was asked for with, -1 for sheet_by_index(-1) on demand.')
c('C107', 'proved', 'C107_same C107_sheets C107_list C107_order',
  'C107_list needs no condition on the file. C107_order shows that the condition of C107_same is needed: a file with an empty COUNTRY record in its first sheet and another one in its second opens at once, but on demand the first sheet is an AssertionError after the second.')
c('C108', 'proved', 'C108_override C108_texts C108_unicode C108_unicode_books',
  'C108_override is about all streams, also those that raise an exception. C108_texts is within the limits of C68 (C68_stream_partial). C108_unicode is the part about BIFF 8; C108_unicode_books shows that its hypothesis holds for names and objects as xlrd reads them. BIFF 2 to 4 with encoding_override are not modelled.')
out = os.path.join(os.path.dirname(os.path.dirname(os.path.abspath(__file__))), 'MANIFEST.json')
if __name__ == '__main__':
    C.sort(key=lambda x: x['property'])
    with open(out, 'w') as f:
        json.dump(dict(claims=C), f, indent=1)
        f.write('\n')
    # a Lean file printing the axioms of every theorem claimed
    ax = ['import Verif'] + ['#print axioms ' + t for x in C for t in x['theorems']]
    open('/tmp/Axioms.lean', 'w').write('\n'.join(ax) + '\n')
    print(len(C), 'claims')
