{"id": "C01", "title": "Start/stop trigger semantics", "statement": "ChannelPack.startstop(startb, stopb) yields a boolean array as long as the shorter input; element i is True exactly when stopb[i] is false and there is some j <= i with startb[j] true and no true stop anywhere in j..i (a stop dominates a simultaneous start).", "quantifier": "all pairs of finite boolean trigger sequences of any, possibly different, lengths", "why_tests_cant": "The output at i depends on the whole prefix of both sequences; there are 4^n inputs of length n.", "anchors": ["channelpack/datautils.py: startstop_bool", "channelpack/pack.py: ChannelPack.startstop"]}
{"id": "C02", "title": "Trigger result is causal", "statement": "Extending startb and stopb with more samples never changes the trigger result already computed for earlier samples.", "quantifier": "all trigger sequences and all extensions of them", "why_tests_cant": "Quantifies over every continuation of every history.", "anchors": ["channelpack/datautils.py: startstop_bool"]}
{"id": "C03", "title": "Parts are exactly the maximal True runs", "statement": "The slices used for parts are, in ascending order, exactly the maximal runs of consecutive True elements of the mask: each is non-empty and all True, neighbours outside are False or out of bounds, and every True element is in exactly one.", "quantifier": "all boolean masks of any length", "why_tests_cant": "Run boundaries at every position, both ends, and every interleaving of runs must be right; only induction covers all lengths.", "anchors": ["channelpack/datautils.py: slicelist", "channelpack/pack.py: ChannelPack._slicelist"]}
{"id": "C04", "title": "Parts partition the filtered data", "statement": "For a channel as long as the mask, concatenating pack(ch, part=i) for i in parts() in order equals pack(ch, nof=\"filter\").", "quantifier": "all packs, channels and masks", "why_tests_cant": "Needs agreement of slicing with boolean indexing for every mask.", "anchors": ["channelpack/pack.py: ChannelPack.__call__, ChannelPack.parts", "channelpack/datautils.py: slicelist"]}
{"id": "C05", "title": "Minimum duration keeps exactly the long runs", "statement": "After pack.duration(d, samplerate), an element of the mask is True iff it was in a maximal True run of at least int(d*samplerate) elements; nothing becomes True; mask length is unchanged.", "quantifier": "all masks, durations and sample rates", "why_tests_cant": "Every combination of run lengths and thresholds, including runs at both ends.", "anchors": ["channelpack/pack.py: ChannelPack.duration"]}
{"id": "C06", "title": "Maximum duration keeps exactly the short runs", "statement": "After pack.duration(d, samplerate, mindur=False), an element is True iff it was in a maximal True run of at most int(d*samplerate) elements.", "quantifier": "all masks, durations and sample rates", "why_tests_cant": "As C05.", "anchors": ["channelpack/pack.py: ChannelPack.duration"]}
{"id": "C07", "title": "Duration filters compose", "statement": "Applying a minimum duration twice changes nothing the second time, and applying minimum durations a then b is the same as applying max(a, b) once.", "quantifier": "all masks and pairs of thresholds", "why_tests_cant": "An algebraic law over all masks and thresholds.", "anchors": ["channelpack/pack.py: ChannelPack.duration"]}
{"id": "C08", "title": "nof=\"nan\" keeps valid data and blanks the rest", "statement": "pack(ch, nof=\"nan\") has the length of the channel; elements with a True mask keep their value and elements with a False mask are NaN for numeric arrays (kinds i,u,f,c) and None for all others.", "quantifier": "all arrays of any dtype kind and masks of the same length", "why_tests_cant": "All values, kinds and masks; includes the int to float upcast of large integers.", "anchors": ["channelpack/datautils.py: masked", "channelpack/pack.py: ChannelPack.__call__"]}
{"id": "C09", "title": "Parts always reflect the current mask", "statement": "After any sequence of pack operations, parts() enumerates exactly the True runs of the current mask attribute and pack(ch, part=i) returns the channel restricted to the i-th run; the cached run list never goes stale.", "quantifier": "all finite histories of attribute assignments and method calls", "why_tests_cant": "A cache-coherence invariant over unbounded operation histories.", "anchors": ["channelpack/pack.py: ChannelPack.__setattr__, duration, startstop, mask_reset, parts, __call__"]}
{"id": "C10", "title": "mindur is persistent", "statement": "Whenever the mindur attribute is an integer m, after any sequence of pack operations every True run of the mask has at least m elements.", "quantifier": "all finite histories of operations", "why_tests_cant": "Invariant over unbounded histories, including re-entrant mask updates made by the setter itself.", "anchors": ["channelpack/pack.py: ChannelPack.__setattr__, duration, mask_reset"]}
{"id": "C11", "title": "mask_reset sets everything valid", "statement": "mask_reset() sets the mask to the length of the array with the lowest key, all True (then shortened by mindur only).", "quantifier": "all packs", "why_tests_cant": "All data contents, in particular values that are not equal to themselves.", "anchors": ["channelpack/pack.py: ChannelPack.mask_reset"]}
{"id": "C12", "title": "append_pack concatenates channel-wise", "statement": "A successful append_pack(other) leaves, for every key, the own data followed by the other pack's data; keys and names are unchanged, filenames is extended with other.filenames, and the mask covers the new length.", "quantifier": "all pairs of packs and all sequences of appends", "why_tests_cant": "Length and content algebra for arbitrary numbers of packs.", "anchors": ["channelpack/pack.py: ChannelPack.append_pack"]}
{"id": "C13", "title": "append_pack is all-or-nothing", "statement": "If append_pack raises ValueError because the packs do not align, the receiving pack is left exactly as it was.", "quantifier": "all pairs of packs that do not align", "why_tests_cant": "Exception-safety at each raise point for every pair of states.", "anchors": ["channelpack/pack.py: ChannelPack.append_pack"]}
{"id": "C14", "title": "Packs are independent", "statement": "Operations on one pack never change what another pack returns, in particular append_pack(other) and anything done to the receiver later leave other alone.", "quantifier": "all histories over any number of packs", "why_tests_cant": "Aliasing shows up only after particular multi-object histories.", "anchors": ["channelpack/pack.py: ChannelPack.append_pack, ChannelPack.__setattr__"]}
{"id": "C15", "title": "Channel lookup order", "statement": "pack(ch) resolves ch as data key first, then as a name (first match in names order), then as a fallback string; the key used is always a data key, a name whose key is missing in data raises KeyError, and anything else raises KeyError.", "quantifier": "all packs and all int or str lookups", "why_tests_cant": "All combinations of keys, names and prefixes, including collisions.", "anchors": ["channelpack/pack.py: ChannelPack._datakey, ChannelPack.__call__"]}
{"id": "C16", "title": "Fallback names round-trip", "statement": "For every non-negative data key k, pack(pack.name(k, fallback=True)) is pack(k) provided no name in names equals that string.", "quantifier": "all packs, all keys, all prefixes that are identifiers", "why_tests_cant": "Decimal rendering and greedy digit matching must be inverse for all numbers.", "anchors": ["channelpack/pack.py: ChannelPack.name, ChannelPack._datakey"]}
{"id": "C17", "title": "nof dispatch", "statement": "After any history the nof attribute is one of \"nan\", \"filter\", None; a call argument nof of nan/filter/ignore overrides it, and the result is the masked, filtered or full array accordingly, the full array being the very array stored.", "quantifier": "all histories, all call arguments", "why_tests_cant": "The error branch for an invalid attribute must be unreachable after every history.", "anchors": ["channelpack/pack.py: ChannelPack.__call__, ChannelPack.__setattr__"]}
{"id": "C18", "title": "part argument", "statement": "pack(ch, part=i) overrides nof, returns the i-th True run for every i in parts(), raises IndexError for i >= len(parts()), and a failing call never changes the pack.", "quantifier": "all packs, all integers i", "why_tests_cant": "All masks and all integers, including negative ones.", "anchors": ["channelpack/pack.py: ChannelPack.__call__"]}
{"id": "C19", "title": "Records agree with channels", "statement": "The i-th record of pack.records() has in its field for name n the i-th element of pack(n), fields ordered by key; the number of records is the length of the shortest channel involved.", "quantifier": "all packs with valid names, all part/nof arguments", "why_tests_cant": "Transposition over arbitrary numbers of channels and lengths.", "anchors": ["channelpack/pack.py: ChannelPack.records"]}
{"id": "C20", "title": "Only integer keys", "statement": "After any sequence of successful or failed constructions, item assignments, updates and setdefaults with dicts or sequences of pairs, all keys of data and names are integers.", "quantifier": "all histories of dict operations", "why_tests_cant": "Invariant over unbounded histories and argument shapes, including exceptions part-way.", "anchors": ["channelpack/pack.py: IntKeyDict, NpDict"]}
{"id": "C21", "title": "update behaves like dict.update", "statement": "For arguments with integer keys, update() on names/data leaves the mapping that plain dict.update would leave: later pairs win, others are untouched.", "quantifier": "all mappings and iterables of pairs", "why_tests_cant": "Holds for every iterable, including one-shot iterators.", "anchors": ["channelpack/pack.py: IntKeyDict.update, NpDict.update"]}
{"id": "C22", "title": "A rejected update changes nothing", "statement": "If an update with a dict or list of pairs is rejected for a non-integer key or for a value that is not 1-dimensional, the mapping is unchanged.", "quantifier": "all mappings, all arguments", "why_tests_cant": "Exception safety at every position of the offending item.", "anchors": ["channelpack/pack.py: IntKeyDict.update, NpDict.update, NpDict.__setitem__"]}
{"id": "C23", "title": "fn and filenames stay consistent", "statement": "After any history filenames is non-empty and filenames[0] == fn; appends extend it with the file names of the appended packs in order.", "quantifier": "all histories of fn assignments and appends", "why_tests_cant": "Invariant over histories.", "anchors": ["channelpack/pack.py: ChannelPack.__setattr__, append_pack"]}
{"id": "C24", "title": "dbf files are decoded faithfully", "statement": "dbfpack(f) of a well-formed DBF file returns for each field, in file order, the decoded values of the records that are not marked deleted.", "quantifier": "all tables: any number of fields and records, any field widths and contents", "why_tests_cant": "A decoder must invert the format for every file.", "anchors": ["channelpack/dbf.py: dbfreader, dbfpack"]}
{"id": "C25", "title": "Selecting dbf fields is projection", "statement": "dbfpack(f, names) returns exactly the columns dbfpack(f) has for those names, under the same keys.", "quantifier": "all files and all selections", "why_tests_cant": "Record addressing must be right for every combination of selected fields and deleted records.", "anchors": ["channelpack/dbf.py: dbfrecords, dbfpack"]}
{"id": "C26", "title": "dbf missing values", "statement": "A blank N or F field becomes NaN, a blank D field None, an L field one of T, F, ?; no field conversion depends on other fields or records.", "quantifier": "all field contents", "why_tests_cant": "All byte strings.", "anchors": ["channelpack/dbf.py: dbfreader"]}
{"id": "C27", "title": "Column letters are a bijection", "statement": "letter2num maps non-empty strings over A-Z one-to-one onto 0, 1, 2, ..., case-insensitively, in the order A..Z, AA..ZZ, AAA.., and is inverse to the column naming used by xlrd.", "quantifier": "all column letter strings of any length, all column numbers", "why_tests_cant": "Infinite domain in both directions.", "anchors": ["channelpack/readxl.py: letter2num", "channelpack/xlrd/book.py: colname"]}
{"id": "C28", "title": "Cell references", "statement": "cellreference(xladdr=letters+row) is (row-1, column of letters) for every column and row >= 1; row 0 and addresses not starting with a letter are rejected.", "quantifier": "all address strings", "why_tests_cant": "Infinite domain.", "anchors": ["channelpack/readxl.py: cellreference"]}
{"id": "C29", "title": "usecols strings", "statement": "normalize_usecols returns an ascending list; column c is in it iff it is named by a pattern or lies within a named range.", "quantifier": "all usecols strings and integer sequences", "why_tests_cant": "All lists of patterns.", "anchors": ["channelpack/readxl.py: normalize_usecols"]}
{"id": "C30", "title": "Spread sheet columns are typed by content", "statement": "A column of numbers/missing yields numbers with NaN for missing, text/missing yields text with empty strings, any other mix yields each value with dates converted, booleans as True/False and missing as None; no value moves to another row.", "quantifier": "all columns of cells", "why_tests_cant": "All mixes of cell types.", "anchors": ["channelpack/readxl.py: sheet_columns"]}
{"id": "C31", "title": "sheetpack reads exactly the requested range", "statement": "sheetpack returns keys = the used columns, all within start/stop columns; the value at index i of column c is the cell at row (start row [+1 with header]) + i, up to the stop row or sheet end, and names come from the header row.", "quantifier": "all sheets, ranges and column selections", "why_tests_cant": "Off-by-one boundaries for all ranges.", "anchors": ["channelpack/readxl.py: sheetpack", "channelpack/xlrd/sheet.py: Sheet.col_values"]}
{"id": "C32", "title": "Excel serial days are the right calendar date", "statement": "xldate_as_tuple maps a whole day number to the Gregorian date that many days after the epoch, for both date modes.", "quantifier": "all day numbers accepted", "why_tests_cant": "Millions of days, leap-year rules.", "anchors": ["channelpack/xlrd/xldate.py: xldate_as_tuple"]}
{"id": "C33", "title": "Date conversions round-trip", "statement": "xldate_from_date_tuple(xldate_as_tuple(n)) == n for every accepted day number and xldate_as_tuple inverts xldate_from_date_tuple for every accepted date.", "quantifier": "all days, all dates, both date modes", "why_tests_cant": "Whole calendar.", "anchors": ["channelpack/xlrd/xldate.py: xldate_as_tuple, xldate_from_date_tuple"]}
{"id": "C34", "title": "Time of day rounding", "statement": "xldate_as_tuple returns a time within half a second of the fraction of the day (up to 2^-37 s, the rounding of the product), hours/minutes/seconds always in range, rolling over to the next day when rounding reaches 24:00:00; the internal assertion never fires.", "quantifier": "all non-negative rational serial numbers", "why_tests_cant": "Dense domain with carry cases.", "anchors": ["channelpack/xlrd/xldate.py: xldate_as_tuple"]}
{"id": "C35", "title": "datetime and tuple conversion agree", "statement": "For whole days from 61 (1900 mode) or 1 (1904 mode), xldate_as_datetime gives the same date as xldate_as_tuple; below 60 in 1900 mode it counts from 1899-12-31.", "quantifier": "all days", "why_tests_cant": "Whole calendar and both epochs.", "anchors": ["channelpack/xlrd/xldate.py: xldate_as_datetime, xldate_as_tuple"]}
{"id": "C36", "title": "Date errors are exactly characterised", "statement": "xldate_as_tuple raises for negative numbers, for year 10000 and later, for the ambiguous days 1..60 of the 1900 system and for bad date modes, and for nothing else.", "quantifier": "all numbers and date modes", "why_tests_cant": "Boundary behaviour across the domain.", "anchors": ["channelpack/xlrd/xldate.py: xldate_as_tuple"]}
{"id": "C37", "title": "Delimited text round-trips", "statement": "textpack of a rectangular table written with a delimiter returns for each column the converted fields in row order under its 0-based column number; blank lines are ignored.", "quantifier": "all rectangular tables, delimiters and float parsers", "why_tests_cant": "All field contents, sizes and delimiters.", "anchors": ["channelpack/readtext.py: textpack, linetuples"]}
{"id": "C38", "title": "usecols selects the named columns", "statement": "textpack(usecols=...) returns, under each requested key, the same data textpack without usecols has under that key.", "quantifier": "all tables and all usecols sequences", "why_tests_cant": "All orders and subsets of columns.", "anchors": ["channelpack/readtext.py: textpack, linetuples"]}
{"id": "C39", "title": "Field names follow their columns", "statement": "With hasnames=True, names[c] is the stripped c-th field of the header line for the same keys as data.", "quantifier": "all header lines and selections", "why_tests_cant": "All header contents.", "anchors": ["channelpack/readtext.py: textpack, linetuples"]}
{"id": "C40", "title": "debug does not change the result", "statement": "textpack(debug=True) returns the same data as debug=False when no exception is raised.", "quantifier": "all inputs", "why_tests_cant": "Two code paths must agree everywhere.", "anchors": ["channelpack/readtext.py: textpack"]}
{"id": "C41", "title": "Column types are decided by the first data line", "statement": "Whether a column is read as numbers or text depends on the first data line only; if any field of it needs a decimal comma all numeric columns accept decimal comma; empty numeric fields become NaN.", "quantifier": "all files", "why_tests_cant": "All line contents.", "anchors": ["channelpack/readtext.py: linetuples, _floatit"]}
{"id": "C42", "title": "Streams are left in order", "statement": "contextopen restores the stream position, closes what it opened on every exit (normal or exception) and never closes a stream the caller passed.", "quantifier": "all streams, positions and exit paths", "why_tests_cant": "All exit paths and positions.", "anchors": ["channelpack/readtext.py: contextopen"]}
{"id": "C43", "title": "preparse result is coherent", "statement": "For a non-empty preparse result, let the last line be the last one that is not blank, and the decimal sign the one of point and comma with the fewer numbers on it (point if as many). usecols is 0..n-1, n the count of numbers on the last line; the delimiter is None if n = 1, else the one kind of separator between the numbers of the last line; converters are there iff the sign is the comma, for exactly these columns; every line from skiprows to the last line has one kind of separator between its numbers (a number and none if n = 1), and the line above does not; names are empty or the n trimmed fields of the nearest line above that can be names, keyed 0..n-1.", "quantifier": "all lists of lines", "why_tests_cant": "All text.", "anchors": ["channelpack/readtext.py: preparse"]}
{"id": "C44", "title": "preparse never raises", "statement": "preparse returns an empty dict when it cannot parse; it does not raise.", "quantifier": "all lists of lines", "why_tests_cant": "All text, including empty files.", "anchors": ["channelpack/readtext.py: preparse"]}
{"id": "C45", "title": "Lazy parsing of numeric tables", "statement": "For numeric data lines written with one delimiter, preparse infers that delimiter and the decimal sign.", "quantifier": "all numeric tables and delimiters", "why_tests_cant": "All numbers and layouts.", "anchors": ["channelpack/readtext.py: preparse, lazy_textpack"]}
{"id": "C46", "title": "Keyword arguments override inference", "statement": "In lazy_textpack each keyword given by the caller is what textpack receives, and inferred names are limited to the requested usecols.", "quantifier": "all inputs and keyword sets", "why_tests_cant": "All combinations.", "anchors": ["channelpack/readtext.py: lazy_textpack"]}
{"id": "C47", "title": "Compound document streams", "statement": "The content get_named_stream returns is the concatenation of the sectors on the allocation chain of a stream with that path, cut to its size, when all sectors of the chain but the last are wholly in the file; the sectors of streams that are not short were unused before. A stream with a finite chain of unused sectors can be read.", "quantifier": "all files, all allocation tables and chains", "why_tests_cant": "All chain shapes.", "anchors": ["channelpack/xlrd/compdoc.py: CompDoc._get_stream, CompDoc.get_named_stream"]}
{"id": "C48", "title": "Reading a compound document terminates", "statement": "Opening a document and following any sector chain of it, however corrupt, terminates with a result or an error.", "quantifier": "all byte strings as files, all allocation tables", "why_tests_cant": "Cyclic tables of every shape.", "anchors": ["channelpack/xlrd/compdoc.py: CompDoc.__init__, CompDoc._get_stream, CompDoc._locate_stream"]}
{"id": "C49", "title": "Contiguous and fragmented streams agree", "statement": "When locate_named_stream gives a stream, get_named_stream gives the same bytes.", "quantifier": "all documents", "why_tests_cant": "All fragmentations.", "anchors": ["channelpack/xlrd/compdoc.py: CompDoc._locate_stream, CompDoc._get_stream"]}
{"id": "C50", "title": "Sheet cells: last write wins", "statement": "After any sequence of put_cell and tidy_dimensions the sheet is rectangular nrows x ncols, each cell has the last value put there or empty, and nrows/ncols are the bounds of the cells put.", "quantifier": "all sequences of cell writes in any order", "why_tests_cant": "Unbounded histories and the first-full-row optimisation.", "anchors": ["channelpack/xlrd/sheet.py: Sheet.put_cell_unragged, Sheet.tidy_dimensions"]}
{"id": "C51", "title": "xlsx cell names", "statement": "cell_name_to_rowx_colx inverts the cell naming for every row and column within the limits and rejects other text.", "quantifier": "all cell names", "why_tests_cant": "Large domain.", "anchors": ["channelpack/xlrd/xlsx.py: cell_name_to_rowx_colx"]}
{"id": "C52", "title": "Date formats", "statement": "is_date_format_string ignores quoted text, escaped characters and bracketed sections, and otherwise says date iff date letters outnumber number placeholders (General and similar never).", "quantifier": "all format strings", "why_tests_cant": "All strings.", "anchors": ["channelpack/xlrd/formatting.py: is_date_format_string"]}
{"id": "C53", "title": "Datetime tuples round-trip", "statement": "xldate_as_tuple(xldate_from_datetime_tuple(t)) == t for every accepted date and time tuple, with each sum, product and quotient rounded to binary64; a tuple is accepted if and only if its date is (or is all zero) and its time is one of the day.", "quantifier": "all accepted datetime tuples, both date modes", "why_tests_cant": "All dates times all seconds of the day.", "anchors": ["channelpack/xlrd/xldate.py: xldate_from_datetime_tuple, xldate_from_time_tuple, xldate_as_tuple"]}
{"id": "C54", "title": "datetime conversion is precise to the millisecond", "statement": "xldate_as_datetime(x) is the instant x days after the epoch, off by at most half a millisecond (up to 2^-27 ms, the rounding of the product), including across midnight, also for negative numbers. An instant of whole milliseconds from March 1900 on, stored as the nearest float, is read back exactly.", "quantifier": "all rational serial numbers within the range of datetime", "why_tests_cant": "Rounding at every fraction.", "anchors": ["channelpack/xlrd/xldate.py: xldate_as_datetime"]}
{"id": "C55", "title": "Cell names and cell references are inverse", "statement": "cellreference(xladdr=xlrd.cellname(r, c)) == (r, c) for every row and column.", "quantifier": "all rows and columns", "why_tests_cant": "Unbounded; a naming that breaks off at some width is missed by samples.", "anchors": ["channelpack/xlrd/formula.py: cellname, colname", "channelpack/readxl.py: cellreference"]}
{"id": "C56", "title": "Given names select their columns", "statement": "textpack(names={k: name, ...}) reads exactly the columns of the keys (non-negative), each as a read of all columns has it, whatever the order of the dict, and sets the names as given; usecols and hasnames have no effect then.", "quantifier": "all streams and all names dicts", "why_tests_cant": "All orders and subsets of columns.", "anchors": ["channelpack/readtext.py: textpack"]}
{"id": "C57", "title": "lazy_textpack reads numeric tables", "statement": "lazy_textpack of a file with any header lines and then a table of numbers, one number or numbers with one separator on each line, with blank lines between, gives as channel j the values of column j (a decimal comma read as a point), and as names the fields found on the nearest line above that can be names; in text streams and in bytes streams.", "quantifier": "all files of numeric tables (first lines not blank, decimal sign decidable on the last line looked at), all header lines, all counts of lines looked at", "why_tests_cant": "Inference and reading have to fit together for all layouts.", "anchors": ["channelpack/readtext.py: lazy_textpack, preparse, textpack, linetuples"]}
{"id": "C58", "title": "Streams are found by path", "statement": "get_named_stream finds a stream by the names of its storages and its own, but for case, wherever the entries are in the trees of the directory; it finds no stream that is not there.", "quantifier": "all directories without equal names in a storage", "why_tests_cant": "All tree shapes.", "anchors": ["channelpack/xlrd/compdoc.py: _build_family_tree, CompDoc._dir_search"]}
{"id": "C59", "title": "A compound document is read as laid out", "statement": "After CompDoc(mem), the tables, the directory and the short stream container are those that the header and the chains lead to, and no sector belongs to two of them.", "quantifier": "all byte strings as files", "why_tests_cant": "All layouts, with extension sectors.", "anchors": ["channelpack/xlrd/compdoc.py: CompDoc.__init__, DirNode.__init__"]}
{"id": "C60", "title": "Ragged rows", "statement": "With ragged_rows (and no merged ranges) each row of a sheet is as long as its last cell put asks for, whatever the order of the cells; each cell has the last value put there or empty.", "quantifier": "all sequences of cell writes in any order", "why_tests_cant": "Unbounded histories.", "anchors": ["channelpack/xlrd/sheet.py: Sheet.put_cell_ragged, Sheet.tidy_dimensions"]}
{"id": "C61", "title": "Work sheets of xlsx files", "statement": "The cells of a work sheet in an xlsx file are read as its XML says: each at the place of its name (without one, after the one before), in the row with its number (without one, the next), as number, date, shared, inline or formula text, boolean or error; later cells win; the dimension given in the file does not matter.", "quantifier": "all work sheets: any rows, cells in any order, with or without names, with other elements between", "why_tests_cant": "All layouts of elements and all positions.", "anchors": ["channelpack/xlrd/xlsx.py: X12Sheet.own_process_stream, do_row, do_merge_cell, do_dimension"]}
{"id": "C62", "title": "Shared strings", "statement": "The shared strings of an xlsx file are the texts of its si elements in order, runs joined, phonetic runs left out, white space at the ends of a text cut unless preserved, escapes _xHHHH_ replaced; any text escaped by a writer (at least each underscore before an x) is read back as it was.", "quantifier": "all string tables; all texts", "why_tests_cant": "All texts, with characters that look like escapes.", "anchors": ["channelpack/xlrd/xlsx.py: X12SST.process_stream_iterparse, get_text_from_si_or_is, cooked_text, unescape"]}
{"id": "C63", "title": "Styles decide about dates", "statement": "A number cell of style k is a date if and only if the number format of the k-th xf in cellXfs is a date format, by its last definition before or built in; xf elements elsewhere and later definitions do not count.", "quantifier": "all style sheets", "why_tests_cant": "All orders of definitions.", "anchors": ["channelpack/xlrd/xlsx.py: X12Styles.do_numfmt, do_xf, do_cellxfs"]}
{"id": "C64", "title": "xlsx files", "statement": "Opening an xlsx file gives the work sheets of the workbook in order, with their names and the date mode, each with the cells of its part; other kinds of sheets are left out, names of parts count without regard to case and with either slash.", "quantifier": "all xlsx files (as trees of elements by part)", "why_tests_cant": "All packagings.", "anchors": ["channelpack/xlrd/xlsx.py: open_workbook_2007_xml, X12Book.process_rels, X12Book.do_sheet, X12Book.do_workbookpr", "channelpack/xlrd/__init__.py: open_workbook"]}
{"id": "C65", "title": "Numbers in .xls files", "statement": "The eight bytes of a double and the four bytes of an RK number are read as the number the format says they stand for: RK numbers are 30 bits, a signed integer or the upper bits of a double, divided by 100 if flagged, and then the nearest float. Every finite float has a pattern of eight bytes that is read as it.", "quantifier": "all bit patterns", "why_tests_cant": "2^64 and 2^32 patterns, with signs, subnormals, infinities and NaN.", "anchors": ["channelpack/xlrd/sheet.py: unpack_RK, Sheet.read"]}
{"id": "C66", "title": "Strings in .xls files", "statement": "A string in a record is read as its text, stored with one or two bytes per unit, with formatting runs and phonetic data or not; the strings of the shared string table are read in order, however the table is split into CONTINUE records.", "quantifier": "all texts, all ways to store them, all splittings", "why_tests_cant": "All splittings of all tables.", "anchors": ["channelpack/xlrd/book.py: unpack_SST_table, Book.handle_sst", "channelpack/xlrd/biffh.py: unpack_unicode"]}
{"id": "C67", "title": "Work sheets of xls files", "statement": "The cells of a work sheet in an xls file (BIFF 5, 7, 8) are read as its records say: numbers, RK numbers, single or many, shared strings, labels, rich strings, booleans, errors, and formulas with the result that is stored (text results in the STRING record and the CONTINUE records after it); later cells win; records of other kinds, embedded charts and the dimensions given in the file do not matter.", "quantifier": "all sequences of records, in files of any content before and after", "why_tests_cant": "All orders, splittings and bit patterns.", "anchors": ["channelpack/xlrd/sheet.py: Sheet.read, Sheet.string_record_contents", "channelpack/xlrd/book.py: Book.get_record_parts"]}
{"id": "C68", "title": "The book of an xls file", "statement": "The stream of an xls book (BIFF 5, 7, 8) is read, wherever it lies in memory: the date mode is as its globals say, and the sheets are its work sheets in order, with their names and the cells that their records stand for; strings are those of the shared string table, and a number is a date if the number format of its XF record is a date format, standard or given in the file. Other records in the globals, sheets of other kinds and what is around the stream do not matter.", "quantifier": "all streams of records, with any memory before and after", "why_tests_cant": "All orders of records, code pages, formats and offsets.", "anchors": ["channelpack/xlrd/book.py: Book.parse_globals, Book.get_sheets, Book.getbof, Book.derive_encoding and its handlers", "channelpack/xlrd/formatting.py: handle_format, handle_xf, fill_in_standard_formats, xf_epilogue"]}
{"id": "C69", "title": "Compound documents in order can be read", "statement": "A compound document that is in order (header, master table with any extension, sector table, directory tree, short stream container and table, each sector used once) can be opened, and each of its streams is read: get_named_stream gives its content, and locate_named_stream data with the content at the offset and of the length given.", "quantifier": "all files that are such documents, all directory trees, all streams of them", "why_tests_cant": "All layouts of sectors in a file; nothing but opening and reading is observable.", "anchors": ["channelpack/xlrd/compdoc.py: CompDoc.__init__, CompDoc.get_named_stream, CompDoc.locate_named_stream, _build_family_tree"]}
{"id": "C70", "title": "An xls file is read", "statement": "An xls file, a compound document with the book in the stream Workbook (or Book, if there is no Workbook) or nothing but the stream of a book, is read: the date mode and the work sheets in order, with their names and the cells that their records stand for, however the stream is laid out in sectors.", "quantifier": "all xls files of BIFF 5, 7, 8", "why_tests_cant": "All layouts of sectors and all orders of records.", "anchors": ["channelpack/xlrd/book.py: open_workbook_xls, Book.biff2_8_load", "channelpack/xlrd/compdoc.py: CompDoc"]}
{"id": "C71", "title": "sheetpack reads spread sheet files", "statement": "sheetpack of an xlsx or xls file gives the outcome that the cells of the chosen sheet determine, with its rows, columns, types, values and the date mode of the file; the sheet is chosen by number (from the end if negative) or as the first one with a name. With nothing but the file, the first row has the names and the rows below it are the data of all columns. A number out of range is an IndexError, a name that no sheet has an XLRDError.", "quantifier": "all files that are books, all sheets, all header, startcell, stopcell and usecols arguments", "why_tests_cant": "All files; the result must not depend on the format or the layout of the file.", "anchors": ["channelpack/xlrd/__init__.py: open_workbook", "channelpack/readxl.py: sheetpack", "channelpack/xlrd/book.py: Book.sheet_by_index, Book.sheet_by_name"]}
{"id": "C72", "title": "Channel names on request", "statement": "pack.name(ch) returns the name of the channel; with firstwordonly=True its first word, with a pattern the first match, with fallback=True the prefix and the key in decimal whatever firstwordonly is. It succeeds only for a channel with a data key; KeyError, IndexError (no word), ValueError (no match) and TypeError otherwise. A name that no other key has leads back to the channel.", "quantifier": "all packs, all channel, firstwordonly and fallback arguments", "why_tests_cant": "All names, all keys and all combinations of arguments.", "anchors": ["channelpack/pack.py: ChannelPack.name"]}
{"id": "C73", "title": "repr shows the content", "statement": "repr(pack) shows every channel and every name, in ascending order of keys, and depends on nothing but the content of the dicts: not on the order of insertion, the mask, nof, mindur or file names.", "quantifier": "all packs, all orders of insertion, all reprs of arrays and names", "why_tests_cant": "All orders of insertion and all keys.", "anchors": ["channelpack/pack.py: ChannelPack.__repr__"]}
{"id": "C74", "title": "Attributes stay there and keep their types", "statement": "After any sequence of assignments and deletions of attributes, successful or not, a pack has FALLBACK_PREFIX (str), data (NpDict), names (IntKeyDict), fn (str), filenames, nof (nan, filter or None) and mindur (int or None), and its mask, if not deleted, is an array. An assignment that raises changes nothing as long as the mask was not deleted, filenames is a list of str and the private slices are left alone.", "quantifier": "all sequences of attempts to assign or delete, with any names and values", "why_tests_cant": "All histories.", "anchors": ["channelpack/pack.py: ChannelPack.__setattr__, __delattr__, __init__"]}
{"id": "C75", "title": "Ends of lines make no difference", "statement": "Two streams, of text or of bytes, whose lines differ only in how each of them ends (LF or CRLF, mixed at will) give the same from textpack and from lazy_textpack: same data, same names, same inferred layout, or the same exception, whatever arguments are given, as long as a delimiter given has no character of the line ends. A text file given by name gives the same whether its lines end in LF, CRLF or CR. In a stream of bytes a lone CR ends no line.", "quantifier": "all texts, positions, arguments, digit classes, numbers of lines to parse, and codecs that leave the ends of lines alone", "why_tests_cant": "Every pair of files.", "anchors": ["channelpack/readtext.py: textpack, linetuples, preparse, lazy_textpack, contextopen"]}
{"id": "C76", "title": "Arrays that a pack hands out", "statement": "pack(ch) for data as masked (nan or filter) gives a new array: whatever is written to it or to slices of it shows in no pack, and nothing done to packs shows in it, unless it is handed to a pack. Any other call gives a window of the channel itself: as long as the channel is not replaced, it reads as the channel does now and a write to it sets just that element of the channel, nothing else of any pack except channels that are the same array. As long as a program writes to no mask, parts and mindur are right for the mask of every pack; pack.mask[j] = v sets just that element, and after pack.mask = pack.mask parts and mindur are right again.", "quantifier": "all histories of any number of packs, interleaved with calls, slices and writes to the arrays in hand", "why_tests_cant": "Sharing of memory shows only in histories that write to an array long after it was handed out.", "anchors": ["channelpack/pack.py: ChannelPack.__call__, ChannelPack.__setattr__, ChannelPack.mask_reset, ChannelPack.append_pack", "channelpack/datautils.py: masked"]}
{"id": "C77", "title": "Hyperlinks, objects and notes leave the cells alone", "statement": "A sheet of an xls file with hyperlinks (to URLs, files, places, with tips), drawing objects with texts, and notes among its records is read, with the cells that its other records stand for.", "quantifier": "all sheets and books of BIFF 5, 7, 8, all hyperlinks, objects and notes that the file format allows", "why_tests_cant": "These records have many optional parts, and one that is misread makes the whole file unreadable.", "anchors": ["channelpack/xlrd/sheet.py: Sheet.handle_hlink, Sheet.handle_quicktip, Sheet.handle_obj, Sheet.handle_note, Sheet.handle_txo"]}
{"id": "C78", "title": "Defined names leave the sheets alone", "statement": "An xls file that has defined names and references to other sheets and files among its records can be read, with the cells of its sheets as without them, whatever formulas the names stand for.", "quantifier": "all books of BIFF 5, 7, 8, all names and external references that the file format allows: any number of them, formulas of any length, names of names", "why_tests_cant": "xlrd works out the formula of every name when it opens a file, although channelpack never asks for a name; an exception there makes the whole file unreadable, and there are as many formulas as one likes.", "anchors": ["channelpack/xlrd/book.py: Book.handle_name, Book.handle_externsheet, Book.handle_externname, Book.handle_supbook, Book.names_epilogue", "channelpack/xlrd/formula.py: evaluate_name_formula, do_binop, do_unaryop, do_box_funcs, get_externsheet_local_range"]}
{"id": "C79", "title": "Defined names, properties and comments of xlsx files leave the cells alone", "statement": "An xlsx file with defined names, core properties and comments on cells is read, with the date mode and the cells of its sheets as without them, whatever the names, properties and comments are.", "quantifier": "all xlsx books, all defined names, core properties and comments that the format allows", "why_tests_cant": "These parts are read when a file is opened although channelpack never asks for them; an exception there makes the whole file unreadable.", "anchors": ["channelpack/xlrd/xlsx.py: X12Book.do_defined_name, do_defined_names, process_coreprops, make_name_access_maps", "channelpack/xlrd/xlsx.py: X12Sheet.process_comments_stream"]}
{"id": "C80", "title": "sheetpack of files with all that may be in them", "statement": "sheetpack of an xlsx or xls file that has names, external references, comments, notes, hyperlinks, drawing objects and properties, in any number and combination, gives the outcome that the cells of the chosen sheet determine.", "quantifier": "all files that are books (xlsx; xls of BIFF 2, 3, 4, 4W, 5, 7, 8), all sheets, all header, startcell, stopcell and usecols arguments", "why_tests_cant": "All files and all combinations of their parts.", "anchors": ["channelpack/readxl.py: sheetpack", "channelpack/xlrd/__init__.py: open_workbook", "channelpack/xlrd/book.py: open_workbook_xls", "channelpack/xlrd/xlsx.py: open_workbook_2007_xml"]}
{"id": "C81", "title": "Files of Excel 2, 3 and 4 are read", "statement": "A file of Excel 2, 3 or 4 (a single sheet, or a book of Excel 4 with several) is read: the sheets have the names of the book (a single one is Sheet 1) and the cells that their records stand for, and a number is a date exactly if the format of its cell is one for dates.", "quantifier": "all files of BIFF 2, 3, 4 and 4W by the file format, with all numbers of sheets, formats, XF records and cells", "why_tests_cant": "The formats of these versions are read by code paths of their own (XF records made up for Excel 2.0, IXFE records, formats by position); no test file has them.", "anchors": ["channelpack/xlrd/sheet.py: Sheet.read, fixed_BIFF2_xfindex, insert_new_BIFF20_xf", "channelpack/xlrd/book.py: open_workbook_xls, fake_globals_get_sheet, handle_sheethdr, handle_boundsheet, handle_sheetsoffset", "channelpack/xlrd/formatting.py: handle_format, handle_xf"]}
{"id": "C82", "title": "Durations in seconds", "statement": "pack.duration(d, samplerate=r) keeps the True parts of the mask that last at least d seconds at r samples a second, mindur=False those that last at most d seconds.", "quantifier": "all packs, all numbers d and r as written in a program (ints, or decimals made floats), products up to 2^50", "why_tests_cant": "The product of two floats is rounded and then cut; whether a part of just the right length counts depends on the last bit.", "anchors": ["channelpack/pack.py: ChannelPack.duration"]}
{"id": "C83", "title": "Numbers in text files", "statement": "The numbers of a table in a text file are read by lazy_textpack as the floats nearest to what is written (infinities if too large), with a decimal point or comma, in digits of any script; floats that were written with 17 significant digits or more are read back exactly.", "quantifier": "all tables of numbers as for C57, all numerals with sign, point and exponent, all floats", "why_tests_cant": "All decimal expansions and all floats.", "anchors": ["channelpack/readtext.py: lazy_textpack, _floatit, _floatit_bytes, linetuples"]}
{"id": "C84", "title": "Decimal numbers in dbf and xlsx files", "statement": "A decimal number in a field of a dbf file (type N with decimals, or F, padded with blanks, NULs not counting in N) and in a cell of an xlsx file is read as the float nearest to the numeral (an infinity if too large); a float that was written with 17 significant digits is read back exactly.", "quantifier": "all dbf files with fields of all types, all numerals with sign, point and exponent; all number cells of xlsx sheets", "why_tests_cant": "All numerals and all floats, next to fields of every other type.", "anchors": ["channelpack/dbf.py: dbfreader, dbfpack", "channelpack/xlrd/xlsx.py: X12Sheet.do_row"]}
{"id": "C85", "title": "Masks of integers", "statement": "A mask of integers, pack.mask = array (as of a channel of flags), works as the mask of its truth values: parts, duration, mindur, startstop and data by part, nof=\"nan\" and nof=\"filter\" are the same.", "quantifier": "all arrays of integers as masks, all programs of assignments to mask and mindur, duration and startstop, all channels", "why_tests_cant": "Any array is accepted as a mask; what numpy makes of integers differs by operation (truth value, index, bits) and depends on the numbers.", "anchors": ["channelpack/pack.py: ChannelPack.__setattr__, ChannelPack.duration, ChannelPack.startstop, ChannelPack.__call__", "channelpack/datautils.py: masked, slicelist"]}
{"id": "C86", "title": "Masking leaves the data alone", "statement": "Assigning to mask or mindur, and calling duration, startstop or mask_reset, changes no data of any pack.", "quantifier": "all programs with any number of packs, sharing arrays and dicts in any way, and all such steps on any of the packs", "why_tests_cant": "Whether data change depends on which arrays are the same object, by the whole history of the program.", "anchors": ["channelpack/pack.py: ChannelPack.__setattr__, ChannelPack.duration, ChannelPack.startstop, ChannelPack.mask_reset, ChannelPack.__call__"]}
{"id": "C87", "title": "Records while the pack changes", "statement": "The generator that pack.records(...) returns gives the records of the pack as it was when records was called, one after the other and then StopIteration, whatever is done between the steps of the iteration; iterating changes no pack.", "quantifier": "all programs with any number of packs, arrays in hand and generators, interleaved at will", "why_tests_cant": "Generators run lazily, a step at a time; what they see depends on every interleaving with other operations.", "anchors": ["channelpack/pack.py: ChannelPack.records, ChannelPack.__call__"]}
{"id": "C88", "title": "Numbers with decimal point and comma", "statement": "textpack reads a field as a number if the field in the first line of data of its column is one: any numeral with a decimal point or comma, nan or an infinity, as float of python has them, gives the float nearest to it, a field with nothing in it gives nan; the columns that begin with something else are text. A table of such fields is read, and no other.", "quantifier": "all tables of text in str and bytes streams, all delimiters, all numerals in all scripts", "why_tests_cant": "Numerals, words, underscores, whitespace and scripts make an infinite grammar, and the first line decides about all others; tests try a few files.", "anchors": ["channelpack/readtext.py: textpack, linetuples, _floatit, _floatit_bytes"]}
{"id": "C89", "title": "lazy_textpack gives numbers", "statement": "The channels that lazy_textpack reads are made of floats: a stream whose data it does not understand as numbers is refused with an exception, not read as text. (Its documentation: \"Works with numerical data files\"; \"Converters derived is either float or one that converts numbers with decimal comma to a float.\")", "quantifier": "all streams of text and bytes, all numbers of lines looked at", "why_tests_cant": "What is inferred depends on the regular expressions, on the last lines looked at and on where the stream ends; tests have a few files that are tables of numbers.", "anchors": ["channelpack/readtext.py: preparse, lazy_textpack, textpack, linetuples"]}
{"id": "C90", "title": "Durations longer than the mask", "statement": "A duration of more samples than the mask has leaves nothing valid with mindur=True and leaves all as it was with mindur=False, also if it is infinite; when duration raises, the pack is as it was.", "quantifier": "all reachable packs, all ints and floats (with infinities and NaN) as duration and samplerate", "why_tests_cant": "The outcome of int(duration * samplerate) has a case for each kind of number: exact ints of any size, ints too large for a float, overflowing products, infinities, NaN; tests have small ints.", "anchors": ["channelpack/pack.py: ChannelPack.duration"]}
{"id": "C91", "title": "Only fallback names are taken for fallback names", "statement": "A str that is not a name in pack.names finds the channel k if it is FALLBACK_PREFIX and the number k, and raises KeyError in every other case. (\"Everything after this prefix is assumed to be a number\"; \"KeyError: If `ch` do not evaluate to a key in the data dict\".)", "quantifier": "all packs, all strings, all tables of decimal digits, all limits of int", "why_tests_cant": "What counts as a number is up to a regular expression that need not match the whole string, the digits of Unicode, and the limit of int for text; tests have ch0, ch1 and the like.", "anchors": ["channelpack/pack.py: ChannelPack._datakey"]}
{"id": "C92", "title": "A pack holds the values it is given", "statement": "ChannelPack(data, names) of a dict of lists of values has the same keys and, for each key, a channel with as many values, one by one equal to those given.", "quantifier": "all dicts of lists of numbers, text, bytes, dates and None", "why_tests_cant": "The type of an array depends on all values of a list together; one value can change all others. Tests have lists of one type.", "anchors": ["channelpack/pack.py: NpDict.__init__, ChannelPack.__init__"]}
{"id": "C93", "title": "The pack of a text file holds the values read", "statement": "The channels of the pack that textpack returns, no converters given, are the values read from the fields of the file.", "quantifier": "all files, all arguments without converters and debug, str and bytes", "why_tests_cant": "Every channel must be of one kind for all lines of all files, however ragged they are; tests read a few files.", "anchors": ["channelpack/readtext.py: textpack, linetuples", "channelpack/pack.py: NpDict.__init__, ChannelPack.__init__"]}
{"id": "C94", "title": "The pack of a dbf file holds the values read", "statement": "The channels of the pack that dbfpack returns are the values read from the fields of the file.", "quantifier": "all files, all names asked for", "why_tests_cant": "Missing numbers are NaN beside ints, missing dates None beside dates; what the array makes of them depends on all records.", "anchors": ["channelpack/dbf.py: dbfpack", "channelpack/pack.py: NpDict.__init__, ChannelPack.__init__"]}
{"id": "C95", "title": "The pack of a sheet holds the values read", "statement": "The channels of the pack that sheetpack returns are the values of C31.", "quantifier": "all sheets with cells of the types xlrd documents, all arguments", "why_tests_cant": "Columns may mix types of cells in any way; the array changes values for some of the mixtures only.", "anchors": ["channelpack/readxl.py: sheetpack, sheet_columns", "channelpack/pack.py: NpDict.__init__, ChannelPack.__init__"]}
{"id": "C96", "title": "append_pack keeps the values of both packs", "statement": "After append_pack(other) every channel that both packs have has the values this pack had, followed by those of the other, one by one equal.", "quantifier": "all pairs of packs with channels of booleans, ints, floats, text, bytes or objects", "why_tests_cant": "The common type of two arrays decides; even an empty array can turn numbers into text. Tests append packs of one type.", "anchors": ["channelpack/pack.py: ChannelPack.append_pack"]}
{"id": "C97", "title": "From a spread sheet file to the channels of a pack", "statement": "sheetpack of an xlsx or xls file returns a pack whose channels are the columns of the sheet, with the values of its cells one by one, and with the names of the first row.", "quantifier": "all xlsx and xls files (BIFF 2 to 8) within the limits of C80, all their sheets with cells whose dates are valid", "why_tests_cant": "The way goes through file formats, cell types, conversions by column and the types of numpy. Tests have a few files of one or two kinds.", "anchors": ["channelpack/readxl.py: sheetpack, sheet_columns", "channelpack/pack.py: NpDict.__init__, ChannelPack.__init__"]}
{"id": "C98", "title": "Which numbers are dates, and sheets with others", "statement": "sheetpack, with arguments that fit the sheet, makes a pack if and only if every cell of type date that it reads (in a column asked for, from the first row of values to the stop row) stands for an instant of the years 1 to 9999; what it raises otherwise is what the topmost such cell of a column is no date for: ValueError for NaN, OverflowError for an infinity or another instant. Cells that are not read do not matter.", "quantifier": "all sheets, start and stop cells, headers, columns and numbers, both date systems", "why_tests_cant": "A single cell of a column decides; the numbers at the bounds depend on rounding and on the date system, and whether the cell is read on all arguments together.", "anchors": ["channelpack/readxl.py: sheetpack, sheet_columns", "channelpack/xlrd/xldate.py: xldate_as_datetime"]}
{"id": "C99", "title": "The line number that debug prints", "statement": "When textpack with debug=True fails on a line of data, the line number it prints is the 1-based number of the last line that could be read: the file up to that line can be read, and below it there are at most blank lines before the line with which it cannot.", "quantifier": "all text files and streams, all arguments with skiprows from 0 on (from 1 on with names in the file)", "why_tests_cant": "The number is put together from a count of tuples and from skiprows; whether it is the number of a line depends on blank lines and on where the names are. Tests look at no printed output.", "anchors": ["channelpack/readtext.py: textpack, linetuples"]}
{"id": "C100", "title": "Records hold the channels of their keys", "statement": "The records of a pack have one field for each named channel (with fallback=True, for each channel) in ascending order of the keys; the field of key k holds the values of pack(k, part, nof), row by row, up to the end of the shortest.", "quantifier": "all packs, parts, nof and fallback", "why_tests_cant": "The fields are made of the keys but the values are looked up by the fields, first among the names; a name like ch0 on another channel changes what a field holds. Tests use names without such clashes.", "anchors": ["channelpack/pack.py: ChannelPack.records, ChannelPack.__call__, ChannelPack._datakey"]}
{"id": "C101", "title": "The mask fits the data", "statement": "As long as all channels of a pack have one length and the masks assigned have it, the mask is a bool array of that length: every channel can be called with nof=\"filter\".", "quantifier": "all packs and all sequences of assignments, item assignments and method calls, also with exceptions in between", "why_tests_cant": "The mask is kept apart from the data and made anew by some operations only; whether it fits after a sequence of operations depends on all of them. Tests look at single operations.", "anchors": ["channelpack/pack.py: ChannelPack.__init__, ChannelPack.__setattr__, ChannelPack.append_pack, ChannelPack.mask_reset, ChannelPack.startstop, ChannelPack.__call__"]}
{"id": "C102", "title": "Slices of rows and columns", "statement": "row_slice, row_values, row_types, col_slice, col_values and col_types of a sheet take the cells that a slice of a list with the same bounds takes, for bounds left out, negative, or beyond the ends; rows, columns, iteration and item access show the same cells.", "quantifier": "all sheets after any history of writes, ragged or not, all rows and columns, all integer bounds", "why_tests_cant": "The bounds are computed by hand in four places; tests try some bounds on one small sheet.", "anchors": ["channelpack/xlrd/sheet.py: Sheet.row_slice, Sheet.row_values, Sheet.row_types, Sheet.col_slice, Sheet.col_values, Sheet.col_types, Sheet.row, Sheet.row_len, Sheet.get_rows, Sheet.__getitem__, Sheet.cell"]}
{"id": "C103", "title": "A cell by any of its indices", "statement": "A negative row or column index of a sheet counts from the end, and finds the same cell (value, type, format) as the index from the start.", "quantifier": "all sheets with tables of one shape, all cells, all indices", "why_tests_cant": "The format of an empty cell comes from dicts that know no negative keys; only sheets read with formatting_info and a formatted row show it.", "anchors": ["channelpack/xlrd/sheet.py: Sheet.cell, Sheet.cell_xf_index, Sheet.cell_value, Sheet.cell_type"]}
{"id": "C104", "title": "Names that stand for cells", "statement": "A defined name of an xls file that stands for an area with fixed rows and columns gives the rectangle of its cells (area2d: whole, or clipped to the sheet) and, if it is one cell, that cell of its sheet (cell); spaces, colons and commas between areas mean intersection, smallest area with both, and two areas; names that are no such reference raise XLRDError and nothing else.", "quantifier": "all books of BIFF 5, 7, 8, all areas on any sheets combined in any way by the operators, all sheets", "why_tests_cant": "The operators nest without bound, and boxes exclude their last row where the file includes it; tests try a few names.", "anchors": ["channelpack/xlrd/book.py: Name.cell, Name.area2d, Book.names_epilogue", "channelpack/xlrd/formula.py: evaluate_name_formula, do_box_funcs, get_cell_addr, get_cell_range_addr, get_externsheet_local_range"]}
{"id": "C105", "title": "Names of references tell them", "statement": "The text that xlrd makes for a reference to cells tells the reference: rangename3d writes sheets and fixed cells so that different areas have different texts (sheet names without colon); cellnamerel and rangename3drel write relative rows and columns as offsets, or as the cell that is meant from the base cell, never the name of another cell.", "quantifier": "all sheet names, sheets, rows, columns up to ZZ, offsets (negative too), base cells given or not, both styles", "why_tests_cant": "Texts of different references could coincide in some case of the unbounded many; tests try a few references.", "anchors": ["channelpack/xlrd/formula.py: rownamerel, colnamerel, cellnameabs, cellnamerel, rangename2d, rangename2drel, rangename3d, rangename3drel, quotedsheetname, sheetrange, sheetrangerel"]}
{"id": "C106", "title": "Sheets of an open book", "statement": "Whatever was loaded, unloaded, released or asked for before, sheet_by_index, sheet_by_name (and book[...]), sheets() and list(book) give the sheets that the file has at the places asked for, the first one with a name; they raise exceptions exactly for indexes out of range, unknown names, and sheets that are not loaded while the book cannot be read (not opened on demand, or released); sheet_loaded tells exactly what was asked for since it was last unloaded.", "quantifier": "all files, books opened on demand, at once or from xlsx; all finite sequences of calls with all indexes (negative too) and names", "why_tests_cant": "The state of the book depends on all calls before; tests try a few short sequences.", "anchors": ["channelpack/xlrd/book.py: sheets, sheet_by_index, __iter__, sheet_by_name, __getitem__, sheet_names, sheet_loaded, unload_sheet, release_resources, get_sheet"]}
{"id": "C107", "title": "On demand is the same as at once", "statement": "An xls file opened with on_demand=True has the date mode and the sheets that it has when opened at once: each sheet asked for, in whatever order, again after unloading it or not, is the same (in files whose country is set before the sheets, or that have no sheet with an empty COUNTRY record); a file that does not open on demand does not open at once either, with the same exception; and for all files list(book) of a book opened on demand gives the sheets, or raises the exception, that opening at once does.", "quantifier": "all files (streams of bytes), all sequences of calls short of release_resources", "why_tests_cant": "Settings of the book that reading a sheet changes could make sheets depend on the order; tests try a few files in a few orders.", "anchors": ["channelpack/xlrd/book.py: open_workbook_xls, get_sheet, get_sheets, handle_country"]}
{"id": "C108", "title": "encoding_override is the encoding of all texts", "statement": "An xls file of BIFF 5 or 7 opened with encoding_override is read as if the encoding given were that of every code page: all texts of cells, sheet names, formats and names are in it, whatever code page the file says, known to python or not, and wherever it says so; so a book whose texts are in that encoding has its cells and sheet names. In BIFF 8, where text is in Unicode, a file that opens without encoding_override gives the same sheets with it, for all encodings known to python.", "quantifier": "all files (streams of bytes) of BIFF 5, 7 and 8, all encodings", "why_tests_cant": "The code page may come anywhere, more than once or not at all, and each kind of text looks up the encoding on its own.", "anchors": ["channelpack/xlrd/book.py: derive_encoding, handle_codepage, handle_boundsheet, handle_writeaccess, parse_globals"]}
