#!/usr/bin/env python3
"""Source of /verif/properties.jsonl (run: python3 tools/props.py)."""
import json, os
P = []
def p(id, title, statement, quantifier, why, *anchors):
    P.append(dict(id=id, title=title, statement=statement, quantifier=quantifier,
                  why_tests_cant=why, anchors=list(anchors)))
D='channelpack/datautils.py'; K='channelpack/pack.py'; T='channelpack/readtext.py'
B='channelpack/dbf.py'; X='channelpack/readxl.py'; XD='channelpack/xlrd/xldate.py'
CD='channelpack/xlrd/compdoc.py'; SH='channelpack/xlrd/sheet.py'; BK='channelpack/xlrd/book.py'
FM='channelpack/xlrd/formatting.py'; XS='channelpack/xlrd/xlsx.py'

p('C01','Start/stop trigger semantics','ChannelPack.startstop(startb, stopb) yields a boolean array as long as the shorter input; element i is True exactly when stopb[i] is false and there is some j <= i with startb[j] true and no true stop anywhere in j..i (a stop dominates a simultaneous start).','all pairs of finite boolean trigger sequences of any, possibly different, lengths','The output at i depends on the whole prefix of both sequences; there are 4^n inputs of length n.',f'{D}: startstop_bool',f'{K}: ChannelPack.startstop')
p('C02','Trigger result is causal','Extending startb and stopb with more samples never changes the trigger result already computed for earlier samples.','all trigger sequences and all extensions of them','Quantifies over every continuation of every history.',f'{D}: startstop_bool')
p('C03','Parts are exactly the maximal True runs','The slices used for parts are, in ascending order, exactly the maximal runs of consecutive True elements of the mask: each is non-empty and all True, neighbours outside are False or out of bounds, and every True element is in exactly one.','all boolean masks of any length','Run boundaries at every position, both ends, and every interleaving of runs must be right; only induction covers all lengths.',f'{D}: slicelist',f'{K}: ChannelPack._slicelist')
p('C04','Parts partition the filtered data','For a channel as long as the mask, concatenating pack(ch, part=i) for i in parts() in order equals pack(ch, nof="filter").','all packs, channels and masks','Needs agreement of slicing with boolean indexing for every mask.',f'{K}: ChannelPack.__call__, ChannelPack.parts',f'{D}: slicelist')
p('C05','Minimum duration keeps exactly the long runs','After pack.duration(d, samplerate), an element of the mask is True iff it was in a maximal True run of at least int(d*samplerate) elements; nothing becomes True; mask length is unchanged.','all masks, durations and sample rates','Every combination of run lengths and thresholds, including runs at both ends.',f'{K}: ChannelPack.duration')
p('C06','Maximum duration keeps exactly the short runs','After pack.duration(d, samplerate, mindur=False), an element is True iff it was in a maximal True run of at most int(d*samplerate) elements.','all masks, durations and sample rates','As C05.',f'{K}: ChannelPack.duration')
p('C07','Duration filters compose','Applying a minimum duration twice changes nothing the second time, and applying minimum durations a then b is the same as applying max(a, b) once.','all masks and pairs of thresholds','An algebraic law over all masks and thresholds.',f'{K}: ChannelPack.duration')
p('C08','nof="nan" keeps valid data and blanks the rest','pack(ch, nof="nan") has the length of the channel; elements with a True mask keep their value and elements with a False mask are NaN for numeric arrays (kinds i,u,f,c) and None for all others.','all arrays of any dtype kind and masks of the same length','All values, kinds and masks; includes the int to float upcast of large integers.',f'{D}: masked',f'{K}: ChannelPack.__call__')
p('C09','Parts always reflect the current mask','After any sequence of pack operations, parts() enumerates exactly the True runs of the current mask attribute and pack(ch, part=i) returns the channel restricted to the i-th run; the cached run list never goes stale.','all finite histories of attribute assignments and method calls','A cache-coherence invariant over unbounded operation histories.',f'{K}: ChannelPack.__setattr__, duration, startstop, mask_reset, parts, __call__')
p('C10','mindur is persistent','Whenever the mindur attribute is an integer m, after any sequence of pack operations every True run of the mask has at least m elements.','all finite histories of operations','Invariant over unbounded histories, including re-entrant mask updates made by the setter itself.',f'{K}: ChannelPack.__setattr__, duration, mask_reset')
p('C11','mask_reset sets everything valid','mask_reset() sets the mask to the length of the array with the lowest key, all True (then shortened by mindur only).','all packs','All data contents, in particular values that are not equal to themselves.',f'{K}: ChannelPack.mask_reset')
p('C12','append_pack concatenates channel-wise','A successful append_pack(other) leaves, for every key, the own data followed by the other pack\'s data; keys and names are unchanged, filenames is extended with other.filenames, and the mask covers the new length.','all pairs of packs and all sequences of appends','Length and content algebra for arbitrary numbers of packs.',f'{K}: ChannelPack.append_pack')
p('C13','append_pack is all-or-nothing','If append_pack raises ValueError because the packs do not align, the receiving pack is left exactly as it was.','all pairs of packs that do not align','Exception-safety at each raise point for every pair of states.',f'{K}: ChannelPack.append_pack')
p('C14','Packs are independent','Operations on one pack never change what another pack returns, in particular append_pack(other) and anything done to the receiver later leave other alone.','all histories over any number of packs','Aliasing shows up only after particular multi-object histories.',f'{K}: ChannelPack.append_pack, ChannelPack.__setattr__')
p('C15','Channel lookup order','pack(ch) resolves ch as data key first, then as a name (first match in names order), then as a fallback string; the key used is always a data key, a name whose key is missing in data raises KeyError, and anything else raises KeyError.','all packs and all int or str lookups','All combinations of keys, names and prefixes, including collisions.',f'{K}: ChannelPack._datakey, ChannelPack.__call__')
p('C16','Fallback names round-trip','For every non-negative data key k, pack(pack.name(k, fallback=True)) is pack(k) provided no name in names equals that string.','all packs, all keys, all prefixes that are identifiers','Decimal rendering and greedy digit matching must be inverse for all numbers.',f'{K}: ChannelPack.name, ChannelPack._datakey')
p('C17','nof dispatch','After any history the nof attribute is one of "nan", "filter", None; a call argument nof of nan/filter/ignore overrides it, and the result is the masked, filtered or full array accordingly, the full array being the very array stored.','all histories, all call arguments','The error branch for an invalid attribute must be unreachable after every history.',f'{K}: ChannelPack.__call__, ChannelPack.__setattr__')
p('C18','part argument','pack(ch, part=i) overrides nof, returns the i-th True run for every i in parts(), raises IndexError for i >= len(parts()), and a failing call never changes the pack.','all packs, all integers i','All masks and all integers, including negative ones.',f'{K}: ChannelPack.__call__')
p('C19','Records agree with channels','The i-th record of pack.records() has in its field for name n the i-th element of pack(n), fields ordered by key; the number of records is the length of the shortest channel involved.','all packs with valid names, all part/nof arguments','Transposition over arbitrary numbers of channels and lengths.',f'{K}: ChannelPack.records')
p('C20','Only integer keys','After any sequence of successful or failed constructions, item assignments, updates and setdefaults with dicts or sequences of pairs, all keys of data and names are integers.','all histories of dict operations','Invariant over unbounded histories and argument shapes, including exceptions part-way.',f'{K}: IntKeyDict, NpDict')
p('C21','update behaves like dict.update','For arguments with integer keys, update() on names/data leaves the mapping that plain dict.update would leave: later pairs win, others are untouched.','all mappings and iterables of pairs','Holds for every iterable, including one-shot iterators.',f'{K}: IntKeyDict.update, NpDict.update')
p('C22','A rejected update changes nothing','If an update with a dict or list of pairs is rejected for a non-integer key or for a value that is not 1-dimensional, the mapping is unchanged.','all mappings, all arguments','Exception safety at every position of the offending item.',f'{K}: IntKeyDict.update, NpDict.update, NpDict.__setitem__')
p('C23','fn and filenames stay consistent','After any history filenames is non-empty and filenames[0] == fn; appends extend it with the file names of the appended packs in order.','all histories of fn assignments and appends','Invariant over histories.',f'{K}: ChannelPack.__setattr__, append_pack')
p('C24','dbf files are decoded faithfully','dbfpack(f) of a well-formed DBF file returns for each field, in file order, the decoded values of the records that are not marked deleted.','all tables: any number of fields and records, any field widths and contents','A decoder must invert the format for every file.',f'{B}: dbfreader, dbfpack')
p('C25','Selecting dbf fields is projection','dbfpack(f, names) returns exactly the columns dbfpack(f) has for those names, under the same keys.','all files and all selections','Record addressing must be right for every combination of selected fields and deleted records.',f'{B}: dbfrecords, dbfpack')
p('C26','dbf missing values','A blank N or F field becomes NaN, a blank D field None, an L field one of T, F, ?; no field conversion depends on other fields or records.','all field contents','All byte strings.',f'{B}: dbfreader')
p('C27','Column letters are a bijection','letter2num maps non-empty strings over A-Z one-to-one onto 0, 1, 2, ..., case-insensitively, in the order A..Z, AA..ZZ, AAA.., and is inverse to the column naming used by xlrd.','all column letter strings of any length, all column numbers','Infinite domain in both directions.',f'{X}: letter2num',f'{BK}: colname')
p('C28','Cell references','cellreference(xladdr=letters+row) is (row-1, column of letters) for every column and row >= 1; row 0 and addresses not starting with a letter are rejected.','all address strings','Infinite domain.',f'{X}: cellreference')
p('C29','usecols strings','normalize_usecols returns an ascending list; column c is in it iff it is named by a pattern or lies within a named range.','all usecols strings and integer sequences','All lists of patterns.',f'{X}: normalize_usecols')
p('C30','Spread sheet columns are typed by content','A column of numbers/missing yields numbers with NaN for missing, text/missing yields text with empty strings, any other mix yields each value with dates converted, booleans as True/False and missing as None; no value moves to another row.','all columns of cells','All mixes of cell types.',f'{X}: sheet_columns')
p('C31','sheetpack reads exactly the requested range','sheetpack returns keys = the used columns, all within start/stop columns; the value at index i of column c is the cell at row (start row [+1 with header]) + i, up to the stop row or sheet end, and names come from the header row.','all sheets, ranges and column selections','Off-by-one boundaries for all ranges.',f'{X}: sheetpack',f'{SH}: Sheet.col_values')
p('C32','Excel serial days are the right calendar date','xldate_as_tuple maps a whole day number to the Gregorian date that many days after the epoch, for both date modes.','all day numbers accepted','Millions of days, leap-year rules.',f'{XD}: xldate_as_tuple')
p('C33','Date conversions round-trip','xldate_from_date_tuple(xldate_as_tuple(n)) == n for every accepted day number and xldate_as_tuple inverts xldate_from_date_tuple for every accepted date.','all days, all dates, both date modes','Whole calendar.',f'{XD}: xldate_as_tuple, xldate_from_date_tuple')
p('C34','Time of day rounding','xldate_as_tuple returns a time within half a second of the fraction of the day (up to 2^-37 s, the rounding of the product), hours/minutes/seconds always in range, rolling over to the next day when rounding reaches 24:00:00; the internal assertion never fires.','all non-negative rational serial numbers','Dense domain with carry cases.',f'{XD}: xldate_as_tuple')
p('C35','datetime and tuple conversion agree','For whole days from 61 (1900 mode) or 1 (1904 mode), xldate_as_datetime gives the same date as xldate_as_tuple; below 60 in 1900 mode it counts from 1899-12-31.','all days','Whole calendar and both epochs.',f'{XD}: xldate_as_datetime, xldate_as_tuple')
p('C36','Date errors are exactly characterised','xldate_as_tuple raises for negative numbers, for year 10000 and later, for the ambiguous days 1..60 of the 1900 system and for bad date modes, and for nothing else.','all numbers and date modes','Boundary behaviour across the domain.',f'{XD}: xldate_as_tuple')
p('C37','Delimited text round-trips','textpack of a rectangular table written with a delimiter returns for each column the converted fields in row order under its 0-based column number; blank lines are ignored.','all rectangular tables, delimiters and float parsers','All field contents, sizes and delimiters.',f'{T}: textpack, linetuples')
p('C38','usecols selects the named columns','textpack(usecols=...) returns, under each requested key, the same data textpack without usecols has under that key.','all tables and all usecols sequences','All orders and subsets of columns.',f'{T}: textpack, linetuples')
p('C39','Field names follow their columns','With hasnames=True, names[c] is the stripped c-th field of the header line for the same keys as data.','all header lines and selections','All header contents.',f'{T}: textpack, linetuples')
p('C40','debug does not change the result','textpack(debug=True) returns the same data as debug=False when no exception is raised.','all inputs','Two code paths must agree everywhere.',f'{T}: textpack')
p('C41','Column types are decided by the first data line','Whether a column is read as numbers or text depends on the first data line only; if any field of it needs a decimal comma all numeric columns accept decimal comma; empty numeric fields become NaN.','all files','All line contents.',f'{T}: linetuples, _floatit')
p('C42','Streams are left in order','contextopen restores the stream position, closes what it opened on every exit (normal or exception) and never closes a stream the caller passed.','all streams, positions and exit paths','All exit paths and positions.',f'{T}: contextopen')
p('C43','preparse result is coherent','For a non-empty preparse result, let the last line be the last one that is not blank, and the decimal sign the one of point and comma with the fewer numbers on it (point if as many). usecols is 0..n-1, n the count of numbers on the last line; the delimiter is None if n = 1, else the one kind of separator between the numbers of the last line; converters are there iff the sign is the comma, for exactly these columns; every line from skiprows to the last line has one kind of separator between its numbers (a number and none if n = 1), and the line above does not; names are empty or the n trimmed fields of the nearest line above that can be names, keyed 0..n-1.','all lists of lines','All text.',f'{T}: preparse')
p('C44','preparse never raises','preparse returns an empty dict when it cannot parse; it does not raise.','all lists of lines','All text, including empty files.',f'{T}: preparse')
p('C45','Lazy parsing of numeric tables','For numeric data lines written with one delimiter, preparse infers that delimiter and the decimal sign.','all numeric tables and delimiters','All numbers and layouts.',f'{T}: preparse, lazy_textpack')
p('C46','Keyword arguments override inference','In lazy_textpack each keyword given by the caller is what textpack receives, and inferred names are limited to the requested usecols.','all inputs and keyword sets','All combinations.',f'{T}: lazy_textpack')
p('C47','Compound document streams','The content get_named_stream returns is the concatenation of the sectors on the allocation chain of a stream with that path, cut to its size, when all sectors of the chain but the last are wholly in the file; the sectors of streams that are not short were unused before. A stream with a finite chain of unused sectors can be read.','all files, all allocation tables and chains','All chain shapes.',f'{CD}: CompDoc._get_stream, CompDoc.get_named_stream')
p('C48','Reading a compound document terminates','Opening a document and following any sector chain of it, however corrupt, terminates with a result or an error.','all byte strings as files, all allocation tables','Cyclic tables of every shape.',f'{CD}: CompDoc.__init__, CompDoc._get_stream, CompDoc._locate_stream')
p('C49','Contiguous and fragmented streams agree','When locate_named_stream gives a stream, get_named_stream gives the same bytes.','all documents','All fragmentations.',f'{CD}: CompDoc._locate_stream, CompDoc._get_stream')
p('C50','Sheet cells: last write wins','After any sequence of put_cell and tidy_dimensions the sheet is rectangular nrows x ncols, each cell has the last value put there or empty, and nrows/ncols are the bounds of the cells put.','all sequences of cell writes in any order','Unbounded histories and the first-full-row optimisation.',f'{SH}: Sheet.put_cell_unragged, Sheet.tidy_dimensions')
p('C51','xlsx cell names','cell_name_to_rowx_colx inverts the cell naming for every row and column within the limits and rejects other text.','all cell names','Large domain.',f'{XS}: cell_name_to_rowx_colx')
p('C52','Date formats','is_date_format_string ignores quoted text, escaped characters and bracketed sections, and otherwise says date iff date letters outnumber number placeholders (General and similar never).','all format strings','All strings.',f'{FM}: is_date_format_string')
p('C53','Datetime tuples round-trip','xldate_as_tuple(xldate_from_datetime_tuple(t)) == t for every accepted date and time tuple, with each sum, product and quotient rounded to binary64; a tuple is accepted if and only if its date is (or is all zero) and its time is one of the day.','all accepted datetime tuples, both date modes','All dates times all seconds of the day.',f'{XD}: xldate_from_datetime_tuple, xldate_from_time_tuple, xldate_as_tuple')
p('C54','datetime conversion is precise to the millisecond','xldate_as_datetime(x) is the instant x days after the epoch, off by at most half a millisecond (up to 2^-27 ms, the rounding of the product), including across midnight, also for negative numbers. An instant of whole milliseconds from March 1900 on, stored as the nearest float, is read back exactly.','all rational serial numbers within the range of datetime','Rounding at every fraction.',f'{XD}: xldate_as_datetime')
p('C55','Cell names and cell references are inverse','cellreference(xladdr=xlrd.cellname(r, c)) == (r, c) for every row and column.','all rows and columns','Unbounded; a naming that breaks off at some width is missed by samples.','channelpack/xlrd/formula.py: cellname, colname',f'{X}: cellreference')
p('C56','Given names select their columns','textpack(names={k: name, ...}) reads exactly the columns of the keys (non-negative), each as a read of all columns has it, whatever the order of the dict, and sets the names as given; usecols and hasnames have no effect then.','all streams and all names dicts','All orders and subsets of columns.',f'{T}: textpack')
p('C57','lazy_textpack reads numeric tables','lazy_textpack of a file with any header lines and then a table of numbers, one number or numbers with one separator on each line, with blank lines between, gives as channel j the values of column j (a decimal comma read as a point), and as names the fields found on the nearest line above that can be names; in text streams and in bytes streams.','all files of numeric tables (first lines not blank, decimal sign decidable on the last line looked at), all header lines, all counts of lines looked at','Inference and reading have to fit together for all layouts.',f'{T}: lazy_textpack, preparse, textpack, linetuples')
p('C58','Streams are found by path','get_named_stream finds a stream by the names of its storages and its own, but for case, wherever the entries are in the trees of the directory; it finds no stream that is not there.','all directories without equal names in a storage','All tree shapes.',f'{CD}: _build_family_tree, CompDoc._dir_search')
p('C59','A compound document is read as laid out','After CompDoc(mem), the tables, the directory and the short stream container are those that the header and the chains lead to, and no sector belongs to two of them.','all byte strings as files','All layouts, with extension sectors.',f'{CD}: CompDoc.__init__, DirNode.__init__')
p('C60','Ragged rows','With ragged_rows (and no merged ranges) each row of a sheet is as long as its last cell put asks for, whatever the order of the cells; each cell has the last value put there or empty.','all sequences of cell writes in any order','Unbounded histories.',f'{SH}: Sheet.put_cell_ragged, Sheet.tidy_dimensions')
p('C61','Work sheets of xlsx files','The cells of a work sheet in an xlsx file are read as its XML says: each at the place of its name (without one, after the one before), in the row with its number (without one, the next), as number, date, shared, inline or formula text, boolean or error; later cells win; the dimension given in the file does not matter.','all work sheets: any rows, cells in any order, with or without names, with other elements between','All layouts of elements and all positions.',f'{XS}: X12Sheet.own_process_stream, do_row, do_merge_cell, do_dimension')
p('C62','Shared strings','The shared strings of an xlsx file are the texts of its si elements in order, runs joined, phonetic runs left out, white space at the ends of a text cut unless preserved, escapes _xHHHH_ replaced; any text escaped by a writer (at least each underscore before an x) is read back as it was.','all string tables; all texts','All texts, with characters that look like escapes.',f'{XS}: X12SST.process_stream_iterparse, get_text_from_si_or_is, cooked_text, unescape')
p('C63','Styles decide about dates','A number cell of style k is a date if and only if the number format of the k-th xf in cellXfs is a date format, by its last definition before or built in; xf elements elsewhere and later definitions do not count.','all style sheets','All orders of definitions.',f'{XS}: X12Styles.do_numfmt, do_xf, do_cellxfs')
p('C64','xlsx files','Opening an xlsx file gives the work sheets of the workbook in order, with their names and the date mode, each with the cells of its part; other kinds of sheets are left out, names of parts count without regard to case and with either slash.','all xlsx files (as trees of elements by part)','All packagings.',f'{XS}: open_workbook_2007_xml, X12Book.process_rels, X12Book.do_sheet, X12Book.do_workbookpr','channelpack/xlrd/__init__.py: open_workbook')
p('C65','Numbers in .xls files','The eight bytes of a double and the four bytes of an RK number are read as the number the format says they stand for: RK numbers are 30 bits, a signed integer or the upper bits of a double, divided by 100 if flagged, and then the nearest float. Every finite float has a pattern of eight bytes that is read as it.','all bit patterns','2^64 and 2^32 patterns, with signs, subnormals, infinities and NaN.',f'{SH}: unpack_RK, Sheet.read')
p('C66','Strings in .xls files','A string in a record is read as its text, stored with one or two bytes per unit, with formatting runs and phonetic data or not; the strings of the shared string table are read in order, however the table is split into CONTINUE records.','all texts, all ways to store them, all splittings','All splittings of all tables.',f'{BK}: unpack_SST_table, Book.handle_sst','channelpack/xlrd/biffh.py: unpack_unicode')
p('C67','Work sheets of xls files','The cells of a work sheet in an xls file (BIFF 5, 7, 8) are read as its records say: numbers, RK numbers, single or many, shared strings, labels, rich strings, booleans, errors, and formulas with the result that is stored (text results in the STRING record and the CONTINUE records after it); later cells win; records of other kinds, embedded charts and the dimensions given in the file do not matter.','all sequences of records, in files of any content before and after','All orders, splittings and bit patterns.',f'{SH}: Sheet.read, Sheet.string_record_contents',f'{BK}: Book.get_record_parts')
p('C68','The book of an xls file','The stream of an xls book (BIFF 5, 7, 8) is read, wherever it lies in memory: the date mode is as its globals say, and the sheets are its work sheets in order, with their names and the cells that their records stand for; strings are those of the shared string table, and a number is a date if the number format of its XF record is a date format, standard or given in the file. Other records in the globals, sheets of other kinds and what is around the stream do not matter.','all streams of records, with any memory before and after','All orders of records, code pages, formats and offsets.',f'{BK}: Book.parse_globals, Book.get_sheets, Book.getbof, Book.derive_encoding and its handlers',f'{FM}: handle_format, handle_xf, fill_in_standard_formats, xf_epilogue')
p('C69','Compound documents in order can be read','A compound document that is in order (header, master table with any extension, sector table, directory tree, short stream container and table, each sector used once) can be opened, and each of its streams is read: get_named_stream gives its content, and locate_named_stream data with the content at the offset and of the length given.','all files that are such documents, all directory trees, all streams of them','All layouts of sectors in a file; nothing but opening and reading is observable.',f'{CD}: CompDoc.__init__, CompDoc.get_named_stream, CompDoc.locate_named_stream, _build_family_tree')
p('C70','An xls file is read','An xls file, a compound document with the book in the stream Workbook (or Book, if there is no Workbook) or nothing but the stream of a book, is read: the date mode and the work sheets in order, with their names and the cells that their records stand for, however the stream is laid out in sectors.','all xls files of BIFF 5, 7, 8','All layouts of sectors and all orders of records.',f'{BK}: open_workbook_xls, Book.biff2_8_load',f'{CD}: CompDoc')
p('C71','sheetpack reads spread sheet files','sheetpack of an xlsx or xls file gives the outcome that the cells of the chosen sheet determine, with its rows, columns, types, values and the date mode of the file; the sheet is chosen by number (from the end if negative) or as the first one with a name. With nothing but the file, the first row has the names and the rows below it are the data of all columns. A number out of range is an IndexError, a name that no sheet has an XLRDError.','all files that are books, all sheets, all header, startcell, stopcell and usecols arguments','All files; the result must not depend on the format or the layout of the file.','channelpack/xlrd/__init__.py: open_workbook',f'{X}: sheetpack',f'{BK}: Book.sheet_by_index, Book.sheet_by_name')
p('C72','Channel names on request','pack.name(ch) returns the name of the channel; with firstwordonly=True its first word, with a pattern the first match, with fallback=True the prefix and the key in decimal whatever firstwordonly is. It succeeds only for a channel with a data key; KeyError, IndexError (no word), ValueError (no match) and TypeError otherwise. A name that no other key has leads back to the channel.','all packs, all channel, firstwordonly and fallback arguments','All names, all keys and all combinations of arguments.',f'{K}: ChannelPack.name')
p('C73','repr shows the content','repr(pack) shows every channel and every name, in ascending order of keys, and depends on nothing but the content of the dicts: not on the order of insertion, the mask, nof, mindur or file names.','all packs, all orders of insertion, all reprs of arrays and names','All orders of insertion and all keys.',f'{K}: ChannelPack.__repr__')
p('C74','Attributes stay there and keep their types','After any sequence of assignments and deletions of attributes, successful or not, a pack has FALLBACK_PREFIX (str), data (NpDict), names (IntKeyDict), fn (str), filenames, nof (nan, filter or None) and mindur (int or None), and its mask, if not deleted, is an array. An assignment that raises changes nothing as long as the mask was not deleted, filenames is a list of str and the private slices are left alone.','all sequences of attempts to assign or delete, with any names and values','All histories.',f'{K}: ChannelPack.__setattr__, __delattr__, __init__')
p('C75','Ends of lines make no difference','Two streams, of text or of bytes, whose lines differ only in how each of them ends (LF or CRLF, mixed at will) give the same from textpack and from lazy_textpack: same data, same names, same inferred layout, or the same exception, whatever arguments are given, as long as a delimiter given has no character of the line ends. A text file given by name gives the same whether its lines end in LF, CRLF or CR. In a stream of bytes a lone CR ends no line.','all texts, positions, arguments, digit classes, numbers of lines to parse, and codecs that leave the ends of lines alone','Every pair of files.',f'{T}: textpack, linetuples, preparse, lazy_textpack, contextopen')
p('C76','Arrays that a pack hands out','pack(ch) for data as masked (nan or filter) gives a new array: whatever is written to it or to slices of it shows in no pack, and nothing done to packs shows in it, unless it is handed to a pack. Any other call gives a window of the channel itself: as long as the channel is not replaced, it reads as the channel does now and a write to it sets just that element of the channel, nothing else of any pack except channels that are the same array. As long as a program writes to no mask, parts and mindur are right for the mask of every pack; pack.mask[j] = v sets just that element, and after pack.mask = pack.mask parts and mindur are right again.','all histories of any number of packs, interleaved with calls, slices and writes to the arrays in hand','Sharing of memory shows only in histories that write to an array long after it was handed out.',f'{K}: ChannelPack.__call__, ChannelPack.__setattr__, ChannelPack.mask_reset, ChannelPack.append_pack',f'{D}: masked')
p('C77','Hyperlinks, objects and notes leave the cells alone','A sheet of an xls file with hyperlinks (to URLs, files, places, with tips), drawing objects with texts, and notes among its records is read, with the cells that its other records stand for.','all sheets and books of BIFF 5, 7, 8, all hyperlinks, objects and notes that the file format allows','These records have many optional parts, and one that is misread makes the whole file unreadable.',f'{SH}: Sheet.handle_hlink, Sheet.handle_quicktip, Sheet.handle_obj, Sheet.handle_note, Sheet.handle_txo')
p('C78','Defined names leave the sheets alone','An xls file that has defined names and references to other sheets and files among its records can be read, with the cells of its sheets as without them, whatever formulas the names stand for.','all books of BIFF 5, 7, 8, all names and external references that the file format allows: any number of them, formulas of any length, names of names','xlrd works out the formula of every name when it opens a file, although channelpack never asks for a name; an exception there makes the whole file unreadable, and there are as many formulas as one likes.',f'{BK}: Book.handle_name, Book.handle_externsheet, Book.handle_externname, Book.handle_supbook, Book.names_epilogue','channelpack/xlrd/formula.py: evaluate_name_formula, do_binop, do_unaryop, do_box_funcs, get_externsheet_local_range')
p('C79','Defined names, properties and comments of xlsx files leave the cells alone','An xlsx file with defined names, core properties and comments on cells is read, with the date mode and the cells of its sheets as without them, whatever the names, properties and comments are.','all xlsx books, all defined names, core properties and comments that the format allows','These parts are read when a file is opened although channelpack never asks for them; an exception there makes the whole file unreadable.',f'{XS}: X12Book.do_defined_name, do_defined_names, process_coreprops, make_name_access_maps',f'{XS}: X12Sheet.process_comments_stream')
p('C80','sheetpack of files with all that may be in them','sheetpack of an xlsx or xls file that has names, external references, comments, notes, hyperlinks, drawing objects and properties, in any number and combination, gives the outcome that the cells of the chosen sheet determine.','all files that are books (xlsx; xls of BIFF 2, 3, 4, 4W, 5, 7, 8), all sheets, all header, startcell, stopcell and usecols arguments','All files and all combinations of their parts.',f'{X}: sheetpack','channelpack/xlrd/__init__.py: open_workbook',f'{BK}: open_workbook_xls',f'{XS}: open_workbook_2007_xml')
p('C81','Files of Excel 2, 3 and 4 are read','A file of Excel 2, 3 or 4 (a single sheet, or a book of Excel 4 with several) is read: the sheets have the names of the book (a single one is Sheet 1) and the cells that their records stand for, and a number is a date exactly if the format of its cell is one for dates.','all files of BIFF 2, 3, 4 and 4W by the file format, with all numbers of sheets, formats, XF records and cells','The formats of these versions are read by code paths of their own (XF records made up for Excel 2.0, IXFE records, formats by position); no test file has them.',f'{SH}: Sheet.read, fixed_BIFF2_xfindex, insert_new_BIFF20_xf',f'{BK}: open_workbook_xls, fake_globals_get_sheet, handle_sheethdr, handle_boundsheet, handle_sheetsoffset',f'{FM}: handle_format, handle_xf')
p('C82','Durations in seconds','pack.duration(d, samplerate=r) keeps the True parts of the mask that last at least d seconds at r samples a second, mindur=False those that last at most d seconds.','all packs, all numbers d and r as written in a program (ints, or decimals made floats), products up to 2^50','The product of two floats is rounded and then cut; whether a part of just the right length counts depends on the last bit.',f'{K}: ChannelPack.duration')
p('C83','Numbers in text files','The numbers of a table in a text file are read by lazy_textpack as the floats nearest to what is written (infinities if too large), with a decimal point or comma, in digits of any script; floats that were written with 17 significant digits or more are read back exactly.','all tables of numbers as for C57, all numerals with sign, point and exponent, all floats','All decimal expansions and all floats.',f'{T}: lazy_textpack, _floatit, _floatit_bytes, linetuples')
p('C84','Decimal numbers in dbf and xlsx files','A decimal number in a field of a dbf file (type N with decimals, or F, padded with blanks, NULs not counting in N) and in a cell of an xlsx file is read as the float nearest to the numeral (an infinity if too large); a float that was written with 17 significant digits is read back exactly.','all dbf files with fields of all types, all numerals with sign, point and exponent; all number cells of xlsx sheets','All numerals and all floats, next to fields of every other type.','channelpack/dbf.py: dbfreader, dbfpack',f'{XS}: X12Sheet.do_row')
p('C85','Masks of integers','A mask of integers, pack.mask = array (as of a channel of flags), works as the mask of its truth values: parts, duration, mindur, startstop and data by part, nof="nan" and nof="filter" are the same.','all arrays of integers as masks, all programs of assignments to mask and mindur, duration and startstop, all channels','Any array is accepted as a mask; what numpy makes of integers differs by operation (truth value, index, bits) and depends on the numbers.',f'{K}: ChannelPack.__setattr__, ChannelPack.duration, ChannelPack.startstop, ChannelPack.__call__',f'{D}: masked, slicelist')
p('C86','Masking leaves the data alone','Assigning to mask or mindur, and calling duration, startstop or mask_reset, changes no data of any pack.','all programs with any number of packs, sharing arrays and dicts in any way, and all such steps on any of the packs','Whether data change depends on which arrays are the same object, by the whole history of the program.',f'{K}: ChannelPack.__setattr__, ChannelPack.duration, ChannelPack.startstop, ChannelPack.mask_reset, ChannelPack.__call__')
p('C87','Records while the pack changes','The generator that pack.records(...) returns gives the records of the pack as it was when records was called, one after the other and then StopIteration, whatever is done between the steps of the iteration; iterating changes no pack.','all programs with any number of packs, arrays in hand and generators, interleaved at will','Generators run lazily, a step at a time; what they see depends on every interleaving with other operations.',f'{K}: ChannelPack.records, ChannelPack.__call__')
p('C88','Numbers with decimal point and comma','textpack reads a field as a number if the field in the first line of data of its column is one: any numeral with a decimal point or comma, nan or an infinity, as float of python has them, gives the float nearest to it, a field with nothing in it gives nan; the columns that begin with something else are text. A table of such fields is read, and no other.','all tables of text in str and bytes streams, all delimiters, all numerals in all scripts','Numerals, words, underscores, whitespace and scripts make an infinite grammar, and the first line decides about all others; tests try a few files.',f'{T}: textpack, linetuples, _floatit, _floatit_bytes')
p('C89','lazy_textpack gives numbers','The channels that lazy_textpack reads are made of floats: a stream whose data it does not understand as numbers is refused with an exception, not read as text. (Its documentation: "Works with numerical data files"; "Converters derived is either float or one that converts numbers with decimal comma to a float.")','all streams of text and bytes, all numbers of lines looked at','What is inferred depends on the regular expressions, on the last lines looked at and on where the stream ends; tests have a few files that are tables of numbers.',f'{T}: preparse, lazy_textpack, textpack, linetuples')
p('C90','Durations longer than the mask','A duration of more samples than the mask has leaves nothing valid with mindur=True and leaves all as it was with mindur=False, also if it is infinite; when duration raises, the pack is as it was.','all reachable packs, all ints and floats (with infinities and NaN) as duration and samplerate','The outcome of int(duration * samplerate) has a case for each kind of number: exact ints of any size, ints too large for a float, overflowing products, infinities, NaN; tests have small ints.',f'{K}: ChannelPack.duration')
p('C91','Only fallback names are taken for fallback names','A str that is not a name in pack.names finds the channel k if it is FALLBACK_PREFIX and the number k, and raises KeyError in every other case. ("Everything after this prefix is assumed to be a number"; "KeyError: If `ch` do not evaluate to a key in the data dict".)','all packs, all strings, all tables of decimal digits, all limits of int','What counts as a number is up to a regular expression that need not match the whole string, the digits of Unicode, and the limit of int for text; tests have ch0, ch1 and the like.',f'{K}: ChannelPack._datakey')
p('C92','A pack holds the values it is given','ChannelPack(data, names) of a dict of lists of values has the same keys and, for each key, a channel with as many values, one by one equal to those given.','all dicts of lists of numbers, text, bytes, dates and None','The type of an array depends on all values of a list together; one value can change all others. Tests have lists of one type.',f'{K}: NpDict.__init__, ChannelPack.__init__')
p('C93','The pack of a text file holds the values read','The channels of the pack that textpack returns, no converters given, are the values read from the fields of the file.','all files, all arguments without converters and debug, str and bytes','Every channel must be of one kind for all lines of all files, however ragged they are; tests read a few files.',f'{T}: textpack, linetuples',f'{K}: NpDict.__init__, ChannelPack.__init__')
p('C94','The pack of a dbf file holds the values read','The channels of the pack that dbfpack returns are the values read from the fields of the file.','all files, all names asked for','Missing numbers are NaN beside ints, missing dates None beside dates; what the array makes of them depends on all records.',f'{B}: dbfpack',f'{K}: NpDict.__init__, ChannelPack.__init__')
p('C95','The pack of a sheet holds the values read','The channels of the pack that sheetpack returns are the values of C31.','all sheets with cells of the types xlrd documents, all arguments','Columns may mix types of cells in any way; the array changes values for some of the mixtures only.',f'{X}: sheetpack, sheet_columns',f'{K}: NpDict.__init__, ChannelPack.__init__')
p('C96','append_pack keeps the values of both packs','After append_pack(other) every channel that both packs have has the values this pack had, followed by those of the other, one by one equal.','all pairs of packs with channels of booleans, ints, floats, text, bytes or objects','The common type of two arrays decides; even an empty array can turn numbers into text. Tests append packs of one type.',f'{K}: ChannelPack.append_pack')
p('C97','From a spread sheet file to the channels of a pack','sheetpack of an xlsx or xls file returns a pack whose channels are the columns of the sheet, with the values of its cells one by one, and with the names of the first row.','all xlsx and xls files (BIFF 2 to 8) within the limits of C80, all their sheets with cells whose dates are valid','The way goes through file formats, cell types, conversions by column and the types of numpy. Tests have a few files of one or two kinds.',f'{X}: sheetpack, sheet_columns',f'{K}: NpDict.__init__, ChannelPack.__init__')
p('C98','Which numbers are dates, and sheets with others','sheetpack, with arguments that fit the sheet, makes a pack if and only if every cell of type date that it reads (in a column asked for, from the first row of values to the stop row) stands for an instant of the years 1 to 9999; what it raises otherwise is what the topmost such cell of a column is no date for: ValueError for NaN, OverflowError for an infinity or another instant. Cells that are not read do not matter.','all sheets, start and stop cells, headers, columns and numbers, both date systems','A single cell of a column decides; the numbers at the bounds depend on rounding and on the date system, and whether the cell is read on all arguments together.',f'{X}: sheetpack, sheet_columns',f'{XD}: xldate_as_datetime')
p('C99','The line number that debug prints','When textpack with debug=True fails on a line of data, the line number it prints is the 1-based number of the last line that could be read: the file up to that line can be read, and below it there are at most blank lines before the line with which it cannot.','all text files and streams, all arguments with skiprows from 0 on (from 1 on with names in the file)','The number is put together from a count of tuples and from skiprows; whether it is the number of a line depends on blank lines and on where the names are. Tests look at no printed output.',f'{T}: textpack, linetuples')
p('C100','Records hold the channels of their keys','The records of a pack have one field for each named channel (with fallback=True, for each channel) in ascending order of the keys; the field of key k holds the values of pack(k, part, nof), row by row, up to the end of the shortest.','all packs, parts, nof and fallback','The fields are made of the keys but the values are looked up by the fields, first among the names; a name like ch0 on another channel changes what a field holds. Tests use names without such clashes.',f'{K}: ChannelPack.records, ChannelPack.__call__, ChannelPack._datakey')
p('C101','The mask fits the data','As long as all channels of a pack have one length and the masks assigned have it, the mask is a bool array of that length: every channel can be called with nof="filter".','all packs and all sequences of assignments, item assignments and method calls, also with exceptions in between','The mask is kept apart from the data and made anew by some operations only; whether it fits after a sequence of operations depends on all of them. Tests look at single operations.',f'{K}: ChannelPack.__init__, ChannelPack.__setattr__, ChannelPack.append_pack, ChannelPack.mask_reset, ChannelPack.startstop, ChannelPack.__call__')
p('C102','Slices of rows and columns','row_slice, row_values, row_types, col_slice, col_values and col_types of a sheet take the cells that a slice of a list with the same bounds takes, for bounds left out, negative, or beyond the ends; rows, columns, iteration and item access show the same cells.','all sheets after any history of writes, ragged or not, all rows and columns, all integer bounds','The bounds are computed by hand in four places; tests try some bounds on one small sheet.',f'{SH}: Sheet.row_slice, Sheet.row_values, Sheet.row_types, Sheet.col_slice, Sheet.col_values, Sheet.col_types, Sheet.row, Sheet.row_len, Sheet.get_rows, Sheet.__getitem__, Sheet.cell')
p('C103','A cell by any of its indices','A negative row or column index of a sheet counts from the end, and finds the same cell (value, type, format) as the index from the start.','all sheets with tables of one shape, all cells, all indices','The format of an empty cell comes from dicts that know no negative keys; only sheets read with formatting_info and a formatted row show it.',f'{SH}: Sheet.cell, Sheet.cell_xf_index, Sheet.cell_value, Sheet.cell_type')
p('C104','Names that stand for cells','A defined name of an xls file that stands for an area with fixed rows and columns gives the rectangle of its cells (area2d: whole, or clipped to the sheet) and, if it is one cell, that cell of its sheet (cell); spaces, colons and commas between areas mean intersection, smallest area with both, and two areas; names that are no such reference raise XLRDError and nothing else.','all books of BIFF 5, 7, 8, all areas on any sheets combined in any way by the operators, all sheets','The operators nest without bound, and boxes exclude their last row where the file includes it; tests try a few names.',f'{BK}: Name.cell, Name.area2d, Book.names_epilogue','channelpack/xlrd/formula.py: evaluate_name_formula, do_box_funcs, get_cell_addr, get_cell_range_addr, get_externsheet_local_range')
p('C105','Names of references tell them','The text that xlrd makes for a reference to cells tells the reference: rangename3d writes sheets and fixed cells so that different areas have different texts (sheet names without colon); cellnamerel and rangename3drel write relative rows and columns as offsets, or as the cell that is meant from the base cell, never the name of another cell.','all sheet names, sheets, rows, columns up to ZZ, offsets (negative too), base cells given or not, both styles','Texts of different references could coincide in some case of the unbounded many; tests try a few references.','channelpack/xlrd/formula.py: rownamerel, colnamerel, cellnameabs, cellnamerel, rangename2d, rangename2drel, rangename3d, rangename3drel, quotedsheetname, sheetrange, sheetrangerel')
p('C106','Sheets of an open book','Whatever was loaded, unloaded, released or asked for before, sheet_by_index, sheet_by_name (and book[...]), sheets() and list(book) give the sheets that the file has at the places asked for, the first one with a name; they raise exceptions exactly for indexes out of range, unknown names, and sheets that are not loaded while the book cannot be read (not opened on demand, or released); sheet_loaded tells exactly what was asked for since it was last unloaded.','all files, books opened on demand, at once or from xlsx; all finite sequences of calls with all indexes (negative too) and names','The state of the book depends on all calls before; tests try a few short sequences.',f'{BK}: sheets, sheet_by_index, __iter__, sheet_by_name, __getitem__, sheet_names, sheet_loaded, unload_sheet, release_resources, get_sheet')
p('C107','On demand is the same as at once','An xls file opened with on_demand=True has the date mode and the sheets that it has when opened at once: each sheet asked for, in whatever order, again after unloading it or not, is the same (in files whose country is set before the sheets, or that have no sheet with an empty COUNTRY record); a file that does not open on demand does not open at once either, with the same exception; and for all files list(book) of a book opened on demand gives the sheets, or raises the exception, that opening at once does.','all files (streams of bytes), all sequences of calls short of release_resources','Settings of the book that reading a sheet changes could make sheets depend on the order; tests try a few files in a few orders.',f'{BK}: open_workbook_xls, get_sheet, get_sheets, handle_country')
p('C108','encoding_override is the encoding of all texts','An xls file of BIFF 5 or 7 opened with encoding_override is read as if the encoding given were that of every code page: all texts of cells, sheet names, formats and names are in it, whatever code page the file says, known to python or not, and wherever it says so; so a book whose texts are in that encoding has its cells and sheet names. In BIFF 8, where text is in Unicode, a file that opens without encoding_override gives the same sheets with it, for all encodings known to python.','all files (streams of bytes) of BIFF 5, 7 and 8, all encodings','The code page may come anywhere, more than once or not at all, and each kind of text looks up the encoding on its own.',f'{BK}: derive_encoding, handle_codepage, handle_boundsheet, handle_writeaccess, parse_globals')
out=os.path.join(os.path.dirname(os.path.dirname(os.path.abspath(__file__))),'properties.jsonl')
if __name__=='__main__':
    ids=[q['id'] for q in P]; assert len(ids)==len(set(ids))
    with open(out,'w') as f:
        for q in P: f.write(json.dumps(q)+'\n')
    print(len(P))
