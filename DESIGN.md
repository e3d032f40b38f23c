# A Lean 4 model of channelpack: design and trusted base

Repository: tomnor/channelpack, `/repo` (python, read as text; never run here).

## Layout

| path | content |
|---|---|
| `lean/Verif/Model/*.lean` | the model, function by function; each definition cites file and lines |
| `lean/Verif/Spec/*.lean` | small specifications that do not mention the model |
| `lean/Verif/Lemmas/*.lean` | helper lemmas |
| `lean/Verif/Props/*.lean` | the property theorems (C01...), with non-vacuity `example`s beside them |
| `seeded/LOG.jsonl` | results of editing the model like a bug would and rebuilding |
| `properties.jsonl` (from `tools/props.py`), `MANIFEST.json` | claims |

## Modelling style

Shallow embedding, exceptions as values (`Except Exc`), mutable objects as
states.  Python semantics assumed: CPython 3; numpy < 2 (the code uses
`np.array(..., copy=False)`).  Where a method can fail half-way, the model
returns the state *after the failure* next to the exception, so exception
safety is stated about real post-states.

## Trusted base

* Lean's kernel and the axioms `propext`, `Classical.choice`, `Quot.sound`
  (nothing else; checked with `#print axioms`, listed per theorem at the end of this
  file).
* My reading of the code: that each definition does what the cited lines do.  `tools/audit.py` checks
  that anchors name what is defined in the file and that cited lines exist and, where a citation
  names a function, that it is there; that the lines are the right ones is for the reader to see.
* The models of what python has built in: `float` and `int` of text, `split`, `strip`, `replace`, lines,
  `re`, arithmetic and comparison of numbers, `struct`, utf-16.  `tools/builtins.py` compares them with
  CPython on random arguments (90 000, no difference; it found that `float` does not strip the characters
  28 to 31, which `strip()` does).  That is a test of the model and proves nothing.
* `tools/conform.py` runs the model (interpreted) on the test files of the project, xls, xlsx, dbf and
  text, and 90 packs written after those of its tests, and compares with the values the tests expect; no code of the project is
  run.  That, too, is a test.  It found that `tInt` tokens of formulas of names are floats, which the
  model had as integers.
* Simplifications named in the comments of the definitions.  The main ones:
  * floats are exact rationals plus `nan`/`inf`; results are rounded to binary64
    (`Model/Float64.lean`, nearest, ties to even; `f64_nearest` shows that it is that) in dates, in
    durations and in the int to float64 upcast of `np.where`; elsewhere rounding is a parameter;
  * `float(text)` is a parameter of the model of readtext (an arbitrary partial function
    from text to values), so the theorems hold for every float parser; C83, C84 and C88
    put a model of the one of python in its place (`Model/PyFloat.lean`, correctly rounded);
  * numpy dtype promotion in `np.append` of different kinds is a parameter; C92 to C96 have that of
    numpy, modelled from its documentation (`Model/NpArray.lean`, `Model/NpAppend.lean`);
  * `re` is modelled by a matcher for the constructs the code uses (`Model/Regex.lean`:
    greedy, backtracking, leftmost); `\d` and `\w` are parameters;
  * `int(text)` has no limit on the count of digits (as before CPython 3.11);
  * `\d` and `int()` in keys and cell addresses take ASCII digits only;
  * OS and codec behaviour is not modelled (codecs are parameters).

## Plan per property

| id | modelled | proof |
|---|---|---|
| C01, C02 | `startstop_bool` as a fold with the `started` flag | induction with a generalised flag; spec by quantifiers over indices |
| C03 | `slicelist` loop with `(started,start,i)` state | loop invariant; spec = maximal runs |
| C04 | `__call__` part/filter | from C03 by splitting the list at runs |
| C05-C07 | `duration` | pointwise characterisation via C03 |
| C08 | `masked` with dtype kinds | pointwise |
| C09, C10, C17, C23 | ChannelPack as a state machine over attribute assignments and methods | invariants by induction over operation lists |
| C11 | `mask_reset` | false when the lowest channel holds NaN (`x == x`): counterexample, partial and the exact mask |
| C12, C13 | `append_pack` with post-failure states | C13 false for mismatching names: counterexample, partial and exactly what is changed |
| C14 | heap model of arrays, dicts and packs with references | refinement under separation; counterexample for append into an empty pack |
| C15, C16, C18, C19 | `_datakey`, `name`, `__call__`, `records` | case analysis, decimal round-trip |
| C20-C22 | `IntKeyDict`/`NpDict` update protocol over argument shapes | invariants; counterexamples for one-shot iterators |
| C24-C26 | byte-level dbf reader over a file with a position | decode of encode, for all tables; C25 false with deleted records: counterexample, partials, and exactly what is read (Spec/DbfSeek.lean) |
| C27-C31 | `letter2num`, `cellreference`, `normalize_usecols`, `sheet_columns`, `sheetpack` | induction on strings |
| C32-C36 | `xldate.py` over integers/rationals | arithmetic against an independent calendar |
| C37-C42, C56 | `linetuples`, `textpack`, `contextopen` over character streams | induction on lines; C38 false for unsorted usecols, C40 false for ragged rows: counterexamples, partials, and what happens exactly |
| C43-C46, C57 | backtracking regex matcher, `preparse`, `lazy_textpack` | numbers found = longest tokens of a grammar; C44 false for blank input, C45 for integers with commas, C46 for `usecols=None`: counterexamples and partials; C57 from C45, C37, C38 and C56 |
| C47-C49, C58, C59 | all of `compdoc.py`; loops along chains with a bound, termination is that some bound is enough | measure on unseen sectors; spec of chains, of trees of siblings and of the layout in the file; C48 false for short streams, C49 for incomplete sectors: counterexamples (whole files, evaluated in the kernel) and partials |
| C50, C60 | `put_cell_unragged`, `put_cell_ragged`, `tidy_dimensions`, with the first-full-row optimisation | invariant: the tables represent a map; refinement to "last put, or empty" |
| C51 | xlsx cell names | induction on strings; false for text other than ASCII letters and digits: counterexample and partial |
| C61-C64 | `xlsx.py` on trees of elements: rows, strings, styles, book | relations between elements and what they stand for; the elements of a sheet do a list of cell operations, then C50; C52 for styles; C64 false for relations of sheets under names with capitals |
| C65, C66 | numbers and strings in BIFF records, `unpack_SST_table` over the SST record and its CONTINUE records | bit arithmetic; spec of a table as a relation between places in records; C66 false for split characters and long phonetic data: counterexamples and partial |
| C67 | `Sheet.read`: records from a place in the file, one step for each record with those it takes after it, the grid of C50 | spec: records that stand for cells as a relation to the operations of C50, other records, whole sheets; one lemma for each kind of record; induction over the sheet; false for some text results of formulas: counterexample and partial |
| C68 | `parse_globals` and its handlers, `derive_encoding`, `getbof`, `get_sheets` from a place in memory | spec: the records of the globals stand for items (code page, date mode, strings, formats, XF keys, sheets), and what a book is follows from the items; invariant of the loop over the records against the items so far; C67 for each sheet; false for formats defined after use: counterexample and partial |
| C69 | `CompDoc.__init__` and the reading of streams, as in C47-C49 | spec: what it is for a file to be a document in order, from the format; each loop of `__init__` gives the part of the spec, and marks no other sectors; then C58 and the loops along chains |
| C70 | `biff2_8_load`, `open_workbook_xls` | spec: bare stream, or document with the stream Workbook or Book; C69 composed with C68; false as C68: counterexample and partial |
| C71 | `open_workbook`, `sheet_by_index`, `sheet_by_name`, `sheetpack` from the content of a file | spec: the sheet that cells determine, as a function; a grid with the cells of C64 or C70 is that sheet; then C31; false as C70: counterexample and partial |
| C72 | `name` with all arguments | spec: the name by the doc string as a relation; both directions, and the exceptions |
| C73 | `__repr__` with sorted keys | spec: a dict display of the items in ascending order, which is unique for a given content |
| C74 | `__init__`, `__setattr__`, `__delattr__` over the attribute dict of an object | invariant by induction over attempts; simulation of the value level model |
| C75 | `textpack`, `lazy_textpack`, `preparse` of two streams; `universal` for text files | relation of lines that differ in their ends, kept by reading, stripping, splitting and the number regex |
| C76 | calls, slices and element writes on arrays in hand (`Model/Views.lean`) over the heap of `Model/World.lean` | frame lemmas: an array that is part of no pack becomes part of one only when it is handed over; a channel is changed by no method, only by writes |
| C77 | `handle_hlink`, `handle_quicktip`, `handle_obj`, `handle_note`, `handle_txo`: which records they take and when they raise | spec: the layout of these records from the file format; one lemma for each kind; then C67 and C68 with the handlers in place of the parameter; false for some: counterexamples and partial |
| C78 | `handle_name`, `handle_externsheet`, `handle_externname`, `handle_supbook`, `names_epilogue`, `evaluate_name_formula`, the operators on operands: what they keep and when they raise | spec: the layout of the records and tokens, and formulas in reverse Polish notation as an inductive relation with the kinds of values that they leave; an invariant of the evaluator's stack; names by induction on their levels; the numbers of python as an interface (`NumFits`) that `pyNum` is proved to meet; then C68 with the handlers in place of the parameter; false for some formulas: counterexamples | `C78_names_partial` |
| C79 | `do_defined_names`, `process_coreprops`, `process_comments_stream`: when they raise | spec: the attributes of names and the elements of comments by the schema; C64 is monotone in what may be in these parts |
| C81 | `Sheet.read`, `parse_globals` and helpers in BIFF 2, 3, 4, 4W (Model/XlsOld.lean) | spec: records of the old formats; invariant of the formats, XF records and (BIFF 2) made-up XF records so far; induction over the bytes of a 4W book |
| C82 | `duration` with its product in binary64 or of ints (Model/Duration.lean) | C05, C06 and the relative error of the product; false where the product is rounded down below a whole number |
| C83 | `float` (Model/PyFloat.lean) in the place of the parameter of C57 | spec: numerals and their values by place; doubles are at least 2^-53 of themselves apart, so that 17 digits determine one |
| C84 | `float` of bytes in the place of the parameter of C24, of str in that of C61 | spec: numerals in bytes and the float for a number (`FloatOf`), without a parser; the cell of a decimal number is one of C24 for this `float` |
| C85 | the mask as a list of integers (Model/IntMask.lean) next to the pack with its truth values | simulation over programs; false for `nof='filter'` (indices) and for `startstop` with even numbers (bits) |
| C86 | the heap model of C14, with all programs instead of the sensible ones | frame theorem for every step on the mask; false if the mask is the array of a channel |
| C87 | generators as objects in the model of packs, arrays in hand and memory (Model/Records.lean) | the arrays a generator runs over are out of reach or channels that nothing writes to, an invariant of all interleavings; false as of the call, since generators are lazy |
| C88 | `textpack` with the model of `float` (Model/PyFloat.lean) | the texts that `float` takes, exactly, as a grammar (Spec/TextNumber.lean), composed with C41; false when a decimal comma is first met below the first line of data |
| C89 | `lazy_textpack` with the model of `float` | what converters are in place for the columns, from C43 and the first line of data; false for lines with words around a number: counterexample, exact, partial |
| C90 | `duration` with the multiplication of python's ints and floats, `Model/PyNum` | cases of the product, then C05 and C06; false for infinite durations: counterexample, exact, partial |
| C91 | `_datakey` with the pattern as a regular expression, digits of Unicode and the limit of `int` | first match of the pattern, then places of digits; false for digits followed by something: counterexample, exact, partial |
| C92 | `np.array` of lists of values (types found, promoted, items put in), `ChannelPack` of such | kinds of numpy as a fold, characterised by what is among the values; exact, counterexample, partial |
| C93–C95 | what `textpack`, `dbfpack`, `sheetpack` give, put in a pack | each column is made by one function, field type or C31; then C92; counterexamples, partials, exact for sheets |
| C96 | `append_pack` with the promotions of numpy in place of the parameter of C12 | each array by itself: its values stay or not in the common type; counterexample, exact, partial |
| C97 | `sheetpack` of a file with `ChannelPack` of its result: C80, C95 and C92 put together | the cells of a column by their types; counterexample, exact, partial |
| C98 | `mixedCell` with NaN and infinities, `xldate_as_datetime` | instants in milliseconds as a relation; which cells are read by the arguments of `sheetpack`; exact conditions |
| C99 | the line number printed by `textpack` with debug (Model/DebugOut.lean) | the last line that can be read, by reading the first lines of the file only; counterexample, exact, partial |
| C100 | `records` by keys (no new model) | the keys in order with their fields, the columns by key; counterexample, exact, partial |
| C101 | the operations on one pack (no new model) | the mask as long as the channels, operation by operation; counterexample, exact, partial |
| C102 | `Sheet.cell` to `Sheet.col_types` (Model/SheetAccess.lean) | places of a slice of a list, rows and columns of one table |
| C103 | the same | indices from the end; counterexample, exact, partial |
| C104 | `Name.cell`, `Name.area2d` (Model/NameCells.lean) on what `names_epilogue` leaves (Model/XlsNames.lean) | spec: areas as expressions with sets of cells, and their tokens; the box of each area holds its cells; other names leave the value of a name alone; all tokens keep references to boxes of sheets that are there; counterexample, exact, partial |
| C105 | `rangename3d`, `rangename3drel`, `cellnamerel` (Model/RangeName.lean) | spec: texts for sheets and cells in the two styles; texts are read back from the end (digits, letters) and the first `!`; counterexample, exact, partial |
| C106 | the methods of `Book` that look at sheets (Model/BookAccess.lean) | spec: the file as a list of names and sheets, states reached by any calls; invariant (what is loaded is what the file has there), each answer and the set of loaded sheets after each call |
| C107 | `open_workbook_xls` with `on_demand` (Model/OnDemand.lean) | C106 with the reader of C67/C68: country settings are unset or those set at last, with which each sheet reads the same; `list(book)` step by step as `get_sheets` |
| C108 | `derive_encoding` and the records that use it, with `encoding_override` (Model/Override.lean) | the run with the override and the run of C68 on a machine where all codecs are that one, step by step: their states differ only in the name of the encoding; in BIFF 8 with the run without it, states differ in code page and encoding, which nothing looks at (Props/OverrideUnicode.lean) |
| C80 | `open_workbook` and `sheetpack` with all handlers in place (Model/FullFile.lean) | C71 with C77, C78, C79 and C81; false for some names: counterexample and partial |
| C52 | date format classifier | equal to a count over a relational spec of the visible characters |
| C53, C54 | `xldate_from_datetime_tuple`, `xldate_as_datetime` | round trip with every operation rounded to binary64: error bounds from `f64_close` |
| C55 | `colname`, `cellname`, `cellreference` | false from column 702: counterexample and partial |

## What is modelled

| file | modelled | not modelled |
|---|---|---|
| `channelpack/datautils.py` | `masked`, `startstop_bool`, `slicelist` (all of it) | - |
| `channelpack/pack.py` | `IntKeyDict`, `NpDict`, `ChannelPack`: attributes, `__call__`, `parts`, `mask`/`mindur`/... setters, `append_pack`, `mask_reset`, `duration`, `startstop`, `name`, `_datakey`, `records`, filenames; `__repr__`, `__setattr__`, `__delattr__` over the attributes of an object (`Model/PackName.lean`); several packs with shared dicts and arrays (`Model/World.lean`), views and in-place edits of arrays they hand out (`Model/Views.lean`) | `repr` of arrays, `re.findall` (parameters); masks of other dtypes than bool, float and integers (`Model/IntMask.lean`, not in the models of shared arrays); assignments to slices of arrays in hand, views handed to a pack |
| `channelpack/readxl.py` | all | opening the file by its name, `fn` |
| `channelpack/xlrd/__init__.py` | `open_workbook` with default arguments, from the content of the file | zipfile and the XML parser (a parameter); `dump`, `count_records` |
| `channelpack/dbf.py` | all | `contextopen` (see readtext) |
| `channelpack/readtext.py` | `preparse`, `lazy_textpack`, `linetuples`, `textpack`, `contextopen` (all) | `print` output of debug but for the line number; text mode of `io.open` but for universal newlines (`Model/Newlines.lean`, from its documentation) |
| `channelpack/xlrd/xldate.py` | all | NaN and infinite inputs of `xldate_as_tuple` (not used) |
| `channelpack/xlrd/compdoc.py` | `DirNode`, `_build_family_tree`, `CompDoc` (all) | log output, `DEBUG`; time stamps and colours of entries |
| `channelpack/xlrd/biffh.py` | `unpack_string`, `unpack_string_update_pos`, `unpack_unicode`, `unpack_unicode_update_pos`, `unpack_cell_range_address_list_update_pos` (what it raises) | all else |
| `channelpack/xlrd/book.py` | `get_record_parts`, `handle_sst`, `unpack_SST_table`, `handle_country`; `parse_globals`, `getbof`, `get_sheets`, `derive_encoding`, `handle_boundsheet`, `handle_codepage`, `handle_datemode`, `handle_writeaccess`, `biff2_8_load`, `open_workbook_xls`, without formatting_info (Model/XlsOld.lean has BIFF 2 to 4: `fake_globals_get_sheet`, `handle_sheethdr`, `handle_sheetsoffset`); `handle_name`, `handle_externsheet`, `handle_externname`, `handle_supbook`, `names_epilogue`, `get_externsheet_local_range` (Model/XlsNames.lean: what the evaluation of names depends on, and when they raise); `Name.cell`, `Name.area2d` (Model/NameCells.lean); `sheets`, `sheet_by_index`, `__iter__`, `sheet_by_name`, `__getitem__`, `sheet_names`, `sheet_loaded`, `unload_sheet`, `release_resources` (the flag only), `get_sheet` of books that are open, on demand too (Model/BookAccess.lean, reading a sheet is a parameter); opening with `on_demand` (Model/OnDemand.lean); `encoding_override` for BIFF 5, 7 and 8 (Model/Override.lean) | `formatting_info`, `encoding_override` in other versions |
| `channelpack/xlrd/formula.py` | `colname`, `cellname`; names of references (Model/RangeName.lean; `rangename2d` without `r1c1`); `evaluate_name_formula` with `do_binop`, `do_unaryop`, `do_box_funcs` and the tables of operators and functions (Model/XlsNames.lean: the stack of operands with kinds and values, without the texts of the formulas); the arithmetic of python on ints and floats (Model/PyNum.lean); rounding, `**`, `float(text)`, `str`, the order of texts and operators on operands that are no numbers are parameters (`PyOps`) | `decompile_formula`, which is not used; the texts of the formulas |
| `channelpack/xlrd/sheet.py` | `cell` to `col_types` (Model/SheetAccess.lean, without the counters `_xf_index_stats`); `put_cell_ragged`, `put_cell_unragged`, `tidy_dimensions`; `unpack_RK`; `Sheet.read` without formatting_info (BIFF 5, 7, 8 in Model/XlsSheet.lean, BIFF 2 to 4 in Model/XlsOld.lean), `string_record_contents`, `fixed_BIFF2_xfindex`, `insert_new_BIFF20_xf`; `handle_hlink`, `handle_quicktip`, `handle_obj`, `handle_note`, `handle_txo` as far as they take records or raise (a parameter in C67, C68, C70, put in place by C77) | formatting_info; attributes beside the cells (only what their records raise) |
| `channelpack/xlrd/xlsx.py` | cell names, text, shared strings, styles, work sheets, relations, workbook, `open_workbook_2007_xml` | XML parsing, zip files (given as trees by name); defined names, core properties, comments beyond the exceptions they raise (a parameter in C64, put in place by C79); log; `formatting_info` |
| `channelpack/xlrd/formatting.py` | `is_date_format_string`; `handle_format`, `handle_xf`, `fill_in_standard_formats`, `xf_epilogue` as far as the types of cells depend on them | fonts, colours, styles |

## Findings

Behaviour of the code that contradicts what a user would expect; those with a theorem are
named.

* `masked`/`nan` masking of integers above 2^53 changes them (`C08_counterexample`).
* `mask_reset` leaves False where the lowest channel holds NaN (`C11_counterexample`).
* `append_pack` with names that do not align raises after data has changed
  (`C13_counterexample`); a failing dtype promotion in `np.append` leaves the channels before
  it appended.
* `append_pack` into an empty pack shares the dicts of the other pack: gathering packs with
  `total.append_pack(a); total.append_pack(b)` changes `a`, whose mask then is too short
  (`C14_counterexample`); a pack without names shares those of the first one appended.
* A mask array given to two packs leaves one of them with stale parts
  (`C14_mask_counterexample`).
* `pack.mask = pack(ch)` for a bool channel makes the mask the channel's array; `mindur`, `duration` and
  `startstop` then write into the data (`C86_counterexample`, `C86_what_happens`).
* `_datakey` takes `ch4xyz` for channel 4 (`re.match` without an end), and the fallback name of a
  negative key does not lead back to it.
* An invalid `nof` given in a call is silently ignored.
* `IntKeyDict.update` with a one-shot iterator loses it or lets unchecked keys in
  (`C20_oneshot_counterexample`, `C20_iterator_item_counterexample`, `C21_counterexample`,
  `C21_oneshot_is_lost`); `setdefault` returns None; `|=` is unchecked.
* `dbfrecords` does not seek past a deleted record, so that the records after it are read from
  wrong places unless the last field is selected (`C25_counterexample`).
* `dbfpack(f, 'AB')`, a str for the names, selects every field whose name is a part of it, `A` as well
  (`C25_str_counterexample`).
* A logical dbf field of width 0 is 'T' (`C26_empty_logical_is_true`); a dbf table without
  live records gives no channels at all (in the statement of C24).
* `cellreference` accepts trailing text, `C7foo` (`C28_trailing_text_is_ignored`).
* `sheetpack(header=1)` raises NameError; an empty selection IndexError (in the model).
* `xldate_as_datetime` maps 59 and 60 to the same day (`C35_day60_collides`).
* `xldate_as_tuple` raises XLDateAmbiguous within the last half second before day 1
  (`C36_last_half_second`).
* `xlrd.colname` raises IndexError from column 702 (`C55_counterexample`).
* `textpack` with usecols that are not increasing, are repeated or out of range files columns
  and names under wrong numbers (`C38_counterexample`, `C39_counterexample`).
* `textpack` drops the columns a short line lacks, with debug it does not
  (`C40_counterexample`); with debug an error in the first line of data becomes KeyError
  (`C40_debug_hides_error`).
* Without a delimiter, a line of tabs only makes `textpack` lose all data
  (`C37_tab_line_counterexample`).  The same holds for every whitespace line with a character outside
  `string.whitespace`, such as a no-break space in text (`C37_exact`).
* `contextopen` leaves a file open whose first read fails (`C42_counterexample`).
* `preparse` raises IndexError if all lines are blank, also for an empty file
  (`C44_counterexample`).
* Integers separated by commas are not recognised (`1,2,3`, `C45_counterexample`), two of them are
  taken for one number with a decimal comma (`C45_two_integers`).
* `preparse` checks the text around the number of a one column table on the last line given
  only, so not if that one is blank (in the statement of C43); it does not compare the separators
  of different lines; columns aligned with spaces of different widths are not recognised.
* `lazy_textpack(usecols=None)` raises TypeError if names are inferred (`C46_counterexample`).
* `lazy_textpack` reads a stream from its start, not from where it is (`lazy_position`).
* A short stream whose chain in the short sector table is cyclic makes `get_named_stream` run
  forever, adding to a list (`C48_counterexample`).
* `get_named_stream` (or `locate_named_stream`) of the same stream again raises CompDocError, as
  its sectors are marked (`get_twice_raises`).
* With an incomplete last sector that is not the last one of a stream, `get_named_stream` and
  `locate_named_stream` give different bytes; `ignore_workbook_corruption` holds for the latter only
  (`C49_counterexample`).
* Marks are bytes, so a stream whose directory entry has a number above 249 raises OverflowError
  (in the model; the bound is in the statement of C47).
* What follows the name of a stream in a path is ignored: `Workbook/x` finds `Workbook` (in `StreamAt`
  of C58).
* A cyclic directory raises RecursionError, one with shared subtrees takes exponential time;
  sectors of less than eight bytes raise ZeroDivisionError; an empty short stream container makes
  a short stream raise TypeError (all in the model).
* `cell_name_to_rowx_colx` takes `A1_0` for A10, `A1 ` for A1 and `ß12` for the second row
  (`C51_counterexample`).
* In xlsx files, the relations of a sheet are looked for by lower case name, but opened by that
  name: if they are stored as `Sheet1.xml.rels`, opening the file raises KeyError
  (`C64_counterexample`; `C64_exact`: exactly then).
* In a `row` without number, the row numbers in cell names are ignored; a cell name there without
  digits (`A`) is taken for the column after it; a negative index of a shared string counts from the
  end; a cell of type `str` without a value has the value None (all in the model).
* A shared string table with a record ending between the two units of a character raises
  UnicodeDecodeError (`C66_split_counterexample`); phonetic data that goes on beyond the next record
  makes it lose its place, here struct.error (`C66_phonetic_counterexample`).
* The text result of a formula is counted in code units (BIFF 8) or bytes (before) in the file, but
  `string_record_contents` compares with the count of decoded characters: a result such as "😀", or
  one in a code page with characters of two bytes, makes the file unreadable (XLRDError):
  `C67_astral_formula`, `C67_two_byte_formula`.
* A DIMENSIONS record after cells sets the counts of rows and columns to 0 again (sheet.py:1093-1098),
  so C67 asks for it before the cells. A LABELSST record with a negative index takes a string from the
  end of the table. A file that ends without EOF raises struct.error, not XLRDError.
* In xls files, a FORMAT record after an XF record that uses its key is ignored for that XF record,
  so that dates are read as numbers (`C68_late_format`). The reader goes by format 0 then
  (`C68_any_formats`), and the types are right exactly if the late format is for dates just as
  format 0 is (`C68_types`).
* A BIFF 8 book with a CODEPAGE record for which python has no codec cannot be opened, although its
  texts are in Unicode (`C68_unused_page`).
* `del pack.mask` is allowed (`C74_counterexample`); `pack.mindur = 3` then raises AttributeError but
  has set mindur. `filenames` can be set to anything.
* A file opened in binary by the caller whose lines end in a lone CR is read as one line, and the CRs get
  into the fields (`carriage_return_stream`); the same file given by name as text is read line by line (C75).
* `pack.mask[j] = False` changes the mask in place without the pack noticing: `parts()` and `pack(ch, part=i)` go on with the
  runs of the mask as it was, `nof='filter'` and `'nan'` with the mask as it is; `mindur` is not applied. `pack.mask = pack.mask`
  puts it right (`C76_stale_counterexample`, `C76_refresh`).
* One hyperlink can make a whole xls file unreadable (C77): a URL with a character beyond the BMP (`handle_hlink` looks for
  its end with the length in characters, and an assertion fails), a display name that the flags speak of (0x4) but that is not
  there (`options & 0x14`), a location beside a moniker that is neither URL nor file (not skipped). So does a text box whose
  text has a surrogate pair at the border of two CONTINUE records (each is decoded by itself).
* Exactly (C77_url_exact): `extra_nbytes` counts the second units of characters beyond the BMP as bytes after the URL, and only 0 or 24 are accepted, so that a URL with twelve such characters is read and one with any other number is not.
* A TXO record of BIFF 8 before any OBJ record raises UnboundLocalError (`saved_obj_id`); the spec of C77 has texts after objects only.
* `Name.cell` and `Name.area2d` raise TypeError (`len(None)`) for a name such as `=S!$A$1:OFFSET(S!$A$1,1,0)`, and AttributeError for
  `=S!$A$1:#REF!`, where XLRDError is documented (`C104_wrong_exceptions`). The range operator with an area without cells (an empty
  intersection) gives an area that is not `#NULL!`; C104 leaves it out.
* `cellnamerel` with the base of only the relative part given mixes the two styles: `cellnamerel(4, 1, 0, 1, None, 2)` is `DR5` and
  `cellnamerel(0, 1, 1, 0, 5, None)` is `C26`, names of quite other cells (`C105_wrong_cells`). Sheet names with a colon make texts of
  sheet ranges ambiguous.
* `sheet_by_index(-1)` of a book opened on demand makes a sheet whose `number` is -1 (`C106_number`). After `unload_sheet` a sheet of a book
  that was not opened on demand cannot be had again: XLRDError, but for xlsx books IndexError, as if there were no such sheet.
* On demand the order in which sheets are read can matter: with an empty COUNTRY record in one sheet and another one in the next the
  file opens at once, but on demand the first sheet raises an AssertionError if it is read after the second (`C107_order`).
* A BIFF 8 file that names a code page unknown to python does not open (`C68_unused_page`) though nothing in it is in that code page;
  with any `encoding_override` it does.
* One defined name can make a whole xls file unreadable (C78), as all names are worked out when a file is opened: `=1/0`
  (ZeroDivisionError), `="a"+1` (ValueError), `="a"<1`, `=-"a"`, `=-A1`, `=CHOOSE(A1+1,1)` (TypeError), `=1+SUM()` (a function without arguments
  empties the whole stack: `del stk[-0:]`; AssertionError), `=SUM({1,2})` (the size of tArray is 9 in the table, it is 8; FormulaError), a name
  for itself or more than ten levels of names (XLRDError), a union of unions (AssertionError), a range from an error (the operand pushed is an int; AttributeError).
  Not part of the spec, but of the same kind: `=2^10000` (OverflowError), tBool above 1 (IndexError), an unknown error code (KeyError),
  FIXED with one argument, a name for a name with an unknown function (AssertionError), an EXTERNNAME before any SUPBOOK (IndexError), in BIFF 5 a name for a sheet
  by an EXTERNSHEET record that is not of kind 3 (KeyError).
* A SUPBOOK record for a file whose name has 1025 characters starts like one for the book itself (bytes 01 04), and is taken for it.
* A comment in an xlsx file whose ref is a range or has `$` in it, or whose author is not in the list, makes the whole file unreadable, and
  so does a defined name with a flag that has blanks around it (ValueError). A book in the namespace of strict Open XML
  is read as one without sheets. (None of these is in the spec of C64 and C79.) On Windows `normpath` gives paths
  with backslashes, and comments are not found.
* A formula with a text in a code page of several bytes for a character makes a file of Excel 2 to 4 unreadable (C81), as in C67. A book of
  Excel 4 with BOUNDSHEET before SHEETSOFFSET raises AttributeError (`_sheetsoffset` has no first value), and one whose SHEETHDR has a length
  that leads back to earlier records may be read without end (both not in the spec of C81).
* `pack.duration(0.29, samplerate=100)` keeps parts of 28 samples: 0.29 * 100 is
  28.999999999999996 as a float and `int` cuts it (`C82_counterexample`).
* A mask of integers is taken, but `nof='filter'` then uses its elements as indices: with flags 1, 0, 1 the
  data are elements 1, 0, 1 (`C85_counterexample`), and `startstop` takes their last bits, so that a 2
  becomes 0 (`C85_counterexample_startstop`).
* `records` looks at the pack at the first `next`, not when called (`C87_counterexample`), and without
  `nan` or `filter` runs over the arrays of the channels, so that writes to them show (`C87_counterexample_write`).
* A column of whole numbers in the first line of data with a decimal comma further down is ValueError
  (`C88_counterexample`); so is a blank between delimiters (`C88_blank`), and a word below `inf` or `nan` (`C88_words`).
* `lazy_textpack` of a file with the one line `hello 1 world` gives a channel with the text `hello`, and `a1 b2` is read as two columns
  separated by `b` (`C89_counterexample`); with a decimal comma it would be refused (`C89_comma`).
* `duration(float('inf'), mindur=False)`, no longest duration, raises OverflowError; so does an int too large for a float with a float beside it, while
  two ints of any size are taken (`C90_counterexample`, `C90_exact`).
* `pack('ch0_speed')` finds channel 0, as `re.match` does not look at what follows the digits; a misspelt name may give the data of another channel
  (`C91_counterexample`). More than 4300 digits raise ValueError (`C91_long_counterexample`).
* Values of a channel that share no type are changed by `np.array`: in a column of a sheet with text and numbers, all filled and no date, the numbers
  become text, while one empty cell keeps them numbers (`C95_counterexample`, `C95_exact`); integers of a dbf file above 2^53 are rounded if one record
  has no number (`C94_counterexample`); NULs at the end of text are lost (`C93_counterexample`).
* `append_pack` of a pack with text in a channel of numbers makes all the numbers text, even if the channel of text is empty (`C96_counterexample`,
  `C96_exact`).
* One cell of type date outside the years 1 to 9999 fails the whole sheet: a number formatted as a
  date (a count of 3000000 in a column with a date format, say) makes `sheetpack` raise OverflowError, with no hint
  of the cell (C98).
* The line number that `textpack(debug=True)` prints before an exception is too small by the number of blank lines in the data above it, and by one
  more with `hasnames` (`C99_counterexample`, `C99_exact`).
* `records(fallback=True)` looks its fields up by name: with a channel named `ch0` that is not channel 0, the field `ch0` holds that channel
  (`C100_counterexample`, `C100_foreign`); a negative key makes it raise KeyError.
* `pack = ChannelPack(); pack.data[0] = [1, 2]` leaves the mask empty, and `pack(0, nof='filter')` raises IndexError until `mask_reset()`; so does
  assigning a NpDict of another length to `data`, although the class documents that the mask is reset (`C101_counterexample`, `C101_what_happens`).
* `sheet.cell(-1, 0)` of a sheet read with formatting_info: an empty cell of the last row does not get the format of its row, since
  `rowinfo_map` has no key -1; `sheet.cell(sheet.nrows - 1, 0)` does (`C103_counterexample`, `C103_exact`).
* `[h]` alone is not a date format, as bracketed sections are dropped (an example beside C52); the
  list `non_date_formats` makes no difference to the result (from `C52_date_format`).

## Axioms per theorem

From `#print axioms` (names are in the namespace `CP`).

* none: `C78_functions`.

* propext: `C102_readxl`, `C103_counterexample`, `C106_number`, `C20_oneshot_counterexample`, `C20_iterator_item_counterexample`, `C21_counterexample`, `C25_counterexample`, `C25_str_counterexample`, `C26_empty_logical_is_true`, `C28_trailing_text_is_ignored`, `C44_counterexample`, `C49_counterexample`, `C62_counterexample`, `C66_split_counterexample`, `C66_phonetic_counterexample`, `C74_undeletable`, `C75_text_file`.

* propext, Classical.choice, Quot.sound: `C03_true_in_exactly_one`, `C04_parts_partition_filter`, `C05_min_duration`, `truncRat_spec`, `C06_max_duration`, `truncRat_spec`, `C07_duration_composes`, `C08_masked_exact`, `C08_nan_masking_partial`, `C08_counterexample`, `C08_exact`, `C08_nearest`, `C09_parts_reflect_mask`, `C10_mindur_persistent`, `C100_records_partial`, `C100_exact`, `C100_lookup`, `C100_foreign`, `C100_accepts`, `C100_counterexample`, `C101_fits_partial`, `C101_step`, `C101_filters`, `C101_new`, `C101_what_happens`, `C101_counterexample`, `C101_append_counterexample`, `C102_column`, `C102_row`, `C102_rows`, `C102_shaped`, `C104_name_cells_partial`, `C104_exact`, `C104_wrong_exceptions`, `C104_counterexample`, `C105_areas`, `C105_cells_partial`, `C105_exact`, `C105_distinct`, `C105_ranges_partial`, `C105_wrong_cells`, `C105_counterexample`, `C106_by_index`, `C106_by_name`, `C106_all`, `C106_get`, `C106_unload`, `C106_names`, `C106_loaded`, `C106_first`, `C107_same`, `C107_sheets`, `C107_list`, `C107_order`, `C108_override`, `C108_texts`, `C108_unicode`, `C108_unicode_books`, `C11_mask_reset_partial`, `C11_exact`, `C12_append_concatenates`, `C12_append_many`, `C13_exact`, `C14_independent_partial`, `C14_exact`, `C14_receiver`, `C14_others`, `C14_new`, `C14_sharing`, `C14_masks`, `C14_reachable`, `C14_counterexample`, `C16_fallback_roundtrip`, `C17_nof_dispatch`, `C18_part_argument`, `C19_records_agree`, `C21_exact`, `C22_intkeydict_rejected`, `C22_npdict_rejected`, `C24_dbf_decoded`, `C25_selection_partial`, `C25_exact`, `C25_places`, `C25_str_partial`, `C26_missing_values`, `C27_bijection`, `C27_order`, `C27_case_and_rejection`, `C28_cell_references`, `C29_usecols_strings`, `C30_columns_typed`, `C31_sheetpack_range`, `C31_sheetpack_accepts`, `C32_serial_days`, `C33_accepted`, `C33_roundtrip`, `C34_time_of_day`, `C34_exact`, `C34_ieee`, `C35_datetime_agrees`, `C35_day60_collides`, `C36_errors`, `C36_last_half_second`, `C37_table_read_partial`, `C37_lines`, `C37_exact`, `C37_tab_line_counterexample`, `C38_usecols_partial`, `C38_exact`, `C38_counterexample`, `C39_names_partial`, `C39_names_selected_partial`, `C39_exact`, `C39_counterexample`, `C40_debug_partial`, `C40_exact`, `C40_counterexample`, `C40_debug_hides_error`, `C41_column_types`, `C42_exact`, `C43_preparse_coherent`, `C44_preparse_raises_partial`, `C45_columns_partial`, `C45_one_column_partial`, `C45_table_partial`, `C45_exact`, `C45_one_column_exact`, `C45_counterexample`, `C45_two_integers`, `C46_counterexample`, `lazy_position`, `C47_stream_content`, `C47_stream_readable`, `get_twice_raises`, `C48_open_ends`, `C48_get_ends_iff`, `C48_locate_ends_iff`, `C48_counterexample`, `C49_locate_agrees_partial`, `C49_locate_works`, `C49_exact`, `C50_last_write_wins`, `C50_limits`, `C51_cell_names_partial`, `C51_exact`, `C51_inverse`, `C51_counterexample`, `C52_date_format`, `C52_quoted_ignored`, `C53_datetime_tuple_roundtrip`, `C53_accepts`, `C54_datetime_precision`, `C54_milliseconds`, `C55_cellname_partial`, `C56_given_names`, `C57_lazy_table`, `C58_search`, `C58_no_stream`, `C59_layout`, `C60_ragged`, `C61_worksheet`, `C62_strings`, `C62_escapes`, `C62_round_trip`, `C63_styles`, `C64_book`, `C64_exact`, `C64_counterexample`, `C65_rk`, `C65_double`, `C65_doubles`, `C65_rk_nearest`, `C66_string`, `C66_shared_strings_partial`, `C66_exact`, `C67_worksheet_partial`, `C67_exact`, `C67_parts`, `C67_counterexample`, `C67_astral_formula`, `C67_two_byte_formula`, `C68_stream_partial`, `C68_any_formats`, `C68_types`, `C68_agree`, `C68_counterexample`, `C68_late_format`, `C68_unused_page`, `C69_document`, `C70_file_partial`, `C70_stream`, `C70_any_formats`, `C70_agree`, `C70_counterexample`, `C71_file_partial`, `C71_whole_sheet_partial`, `C71_no_sheet`, `C71_any_formats`, `C71_unreadable`, `C71_counterexample`, `C72_name`, `C72_round_trip`, `C72_word_counterexample`, `C73_shows_all`, `C73_order_independent`, `C74_attributes`, `C74_assign`, `C74_rejected`, `C74_regular`, `C74_counterexample`, `C75_textpack`, `C75_lazy`, `carriage_return_stream`, `C76_call`, `C76_window`, `C76_slice`, `C76_copy`, `C76_tune`, `C76_mask`, `C76_refresh`, `C76_stale_counterexample`, `C77_objects_partial`, `C77_book`, `C77_text_exact`, `C77_url_exact`, `C77_astral_url`, `C77_site_name`, `C77_other_moniker`, `C77_split_text`, `C77_counterexample`, `C78_names_partial`, `C78_book`, `C78_unreadable`, `C78_counterexample`, `C79_xlsx`, `C80_file_partial`, `C80_whole_sheet_partial`, `C80_no_sheet_partial`, `C80_any_formats`, `C80_counterexample`, `C81_old_partial`, `C81_exact`, `C81_counterexample`, `C82_duration_partial`, `C82_exact`, `C82_whole`, `C82_counterexample`, `C83_numbers_in_text`, `pyFloat_numeral`, `C84_dbf_numbers`, `C84_xlsx_numbers`, `floatBytes_numeral`, `C85_int_masks_partial`, `C85_without_startstop`, `C85_parts`, `C85_iand_exact`, `C85_counterexample`, `C86_masking_keeps_data_partial`, `C86_exact`, `C86_sensible`, `C86_what_happens`, `C87_records`, `C87_records_fixed_partial`, `C87_now`, `C87_pure`, `C87_counterexample`, `C87_counterexample_write`, `C88_numbers_understood_partial`, `C88_exact`, `C88_counterexample`, `C88_words`, `C88_blank`, `pyFloat_iff`, `pyFloatB_iff`, `C89_numbers_partial`, `C89_comma`, `C89_exact`, `C89_counterexample`, `C90_long_partial`, `C90_exact`, `C90_counterexample`, `C91_fallback_partial`, `C91_exact`, `C91_counterexample`, `C91_long_counterexample`, `C92_values_partial`, `C92_exact`, `C92_text`, `C92_counterexample`, `C93_text_partial`, `C93_exact`, `C93_kinds`, `C93_counterexample`, `C94_dbf_partial`, `C94_exact`, `C94_kinds`, `C94_compatible`, `C94_counterexample`, `C95_sheet_partial`, `C95_exact`, `C95_kinds`, `C95_counterexample`, `C96_append_partial`, `C96_exact`, `C96_arrays`, `C96_counterexample`, `C97_file_partial`, `C97_exact`, `C97_cells`, `C97_counterexample`, `C98_sheetpack_iff`, `C98_sheetpack_raises`, `C98_cell`, `C98_number`, `C98_years`, `C98_bounds`, `C99_line_partial`, `C99_exact`, `C99_printed`, `C99_numbers`, `C99_counterexample`.

* propext, Quot.sound: `C01_startstop_semantics`, `C01_startstop_method`, `C02_startstop_causal`, `C03_slices_are_maximal_runs`, `C103_index_partial`, `C103_values`, `C103_format`, `C103_exact`, `C11_counterexample`, `C13_append_atomic_partial`, `C13_counterexample`, `C14_mask_counterexample`, `C15_lookup_order`, `C15_resolution_unique`, `C16_fallback_name_exists`, `C20_only_int_keys`, `C21_npdict_update`, `C21_intkeydict_update_partial`, `C21_oneshot_is_lost`, `C23_filenames_consistent`, `C29_usecols_sequences`, `C42_callers_stream`, `C42_path_partial`, `C42_failed_init`, `C42_counterexample`, `C46_keywords_partial`, `C46_usecols_none`, `C55_exact`, `C55_counterexample`, `C63_no_styles`, `C72_errors`, `C85_filter`, `C85_counterexample_startstop`, `C86_only_mask`, `C86_counterexample`, `C91_names`.
