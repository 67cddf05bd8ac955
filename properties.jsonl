{"id": "C01", "title": "A created card is exactly 80 bytes", "statement": "Whenever building a card from keyword, value and comment succeeds, the raw card is exactly 80 bytes long and consists of the keyword padded with spaces to eight bytes, the value indicator '= ', the serialised value, optionally ' /' and the comment, and trailing spaces only.", "quantifier": "for every card object state, every keyword, every serialised value of any supported integer/boolean/string/complex type and every comment", "why_tests_cant": "the padding arithmetic depends on three independent lengths; samples never cover every combination or the boundaries of all of them", "anchors": ["include/boost/astronomy/io/card.hpp: card::create_card, create_card_impl", "include/boost/astronomy/io/default_card_policy.hpp: format_keyword"]}
{"id": "C02", "title": "Card creation accepts exactly the inputs that fit", "statement": "Creating a card succeeds exactly when the keyword is at most 8 bytes and the serialised value is at most 70 bytes (no comment) or value and comment together are at most 68 bytes; in every other case it reports the invalid-card error and the card object is left exactly as it was.", "quantifier": "for every card object, keyword, value and comment of any length", "why_tests_cant": "accept/reject equivalence and the absence of a partial update concern every input, including all lengths around three limits", "anchors": ["include/boost/astronomy/io/card.hpp: create_card, create_card_impl", "include/boost/astronomy/io/default_card_policy.hpp: is_card_valid"]}
{"id": "C03", "title": "Keyword read back from a created card", "statement": "After a successful creation with a keyword that neither starts nor ends with white space, asking for the keyword returns exactly that keyword, and asking for the whole field returns the keyword padded with spaces to 8 bytes, whatever the value and comment are.", "quantifier": "for every keyword, value and comment accepted by card creation", "why_tests_cant": "needs all keyword contents and all values that could leak into the first eight bytes", "anchors": ["include/boost/astronomy/io/card.hpp: keyword", "include/boost/astronomy/io/default_card_policy.hpp: extract_keyword"]}
{"id": "C04", "title": "Integer values survive a card round trip", "statement": "Creating a card from any integer representable in the chosen C++ integer type and reading it back as that type on a card object with no cached value gives the same integer, with any accepted comment, provided that a keyword used together with a comment contains no '/'.  The proviso is necessary: a keyword containing '/' makes the read fail or return something else.", "quantifier": "for every integer of int, unsigned, long long and size_t, every accepted keyword and comment", "why_tests_cant": "the value space has up to 2^64 members and the parse window depends on where the first '/' of the card is", "anchors": ["include/boost/astronomy/io/card.hpp: create_card, value", "include/boost/astronomy/io/default_card_policy.hpp: serialize_to_fits_format, parse_to, extract_value"]}
{"id": "C05", "title": "Boolean values survive a card round trip", "statement": "Creating a card from a boolean and reading it back as boolean on a fresh card gives the same boolean for every accepted keyword and comment, provided that a keyword used with a comment contains no '/'.", "quantifier": "for both booleans and every accepted keyword and comment", "why_tests_cant": "every comment and keyword content must be excluded from influencing the value", "anchors": ["include/boost/astronomy/io/default_card_policy.hpp: serialize_to_fits_format(bool), parse_to(bool)"]}
{"id": "C06", "title": "String values survive a card round trip exactly when '/' does not interfere", "statement": "Creating a card from a string and reading it back as string on a fresh card gives the string with surrounding white space removed exactly when the value contains no '/' and the keyword contains none or there is no comment (or, when the keyword contains '/' and there is no comment, whatever the value): otherwise the first '/' of the card is taken as the start of the comment and the value read back differs.", "quantifier": "for every string value of at most 68/66 bytes, every accepted keyword and comment", "why_tests_cant": "unit tests use a handful of strings; the delimiter interaction shows only for strings that contain the delimiter or white space at their ends", "anchors": ["include/boost/astronomy/io/card.hpp: value_imp<std::string>", "include/boost/astronomy/io/default_card_policy.hpp: extract_value, serialize_to_fits_format(std::string)"]}
{"id": "C07", "title": "Complex integer values survive a card round trip only by accident", "statement": "Creating a card from a complex integer succeeds whenever keyword and comment fit, but reading the value back as complex<int> always fails with the invalid-cast error; reading back a complex<size_t> succeeds exactly when the imaginary part has 19 decimal digits and the comment is empty or the keyword contains no '/'.  So the documented inverse does not exist for complex values.", "quantifier": "for every pair of integers and every accepted keyword and comment", "why_tests_cant": "showing that no complex value whatsoever can be read back needs all values", "anchors": ["include/boost/astronomy/io/default_card_policy.hpp: parse_to(complex), serialize_to_fits_format(complex)"]}
{"id": "C08", "title": "Reading a card value is repeatable and never changes the card", "statement": "Reading a value never changes the raw card or the keyword.  After a read as type T succeeds, every later read as T returns the same value and every read as another type fails with the bad-get error, for any sequence of reads in between.", "quantifier": "for every card object, every sequence of typed reads", "why_tests_cant": "the cache makes the outcome depend on the whole history of earlier reads", "anchors": ["include/boost/astronomy/io/card.hpp: value, value_cached"]}
{"id": "C09", "title": "Re-creating a card does not invalidate an earlier read", "statement": "If a card object's value has been read as T and the object is then re-created with a new value of type T, reading as T still returns the old value: a re-created card returns its new value only when no value had been cached before.", "quantifier": "for every pair of values, keywords and comments and every earlier read", "why_tests_cant": "needs a history: create, read, create, read; with all values", "anchors": ["include/boost/astronomy/io/card.hpp: create_card_impl, value"]}
{"id": "C10", "title": "What set_value does to a card", "statement": "set_value either leaves the card completely unchanged (exactly when the serialised value is longer than 70 bytes) or replaces the card by the 8-byte keyword field followed directly by the serialised value: the keyword is kept, the value indicator and the comment are lost, and the result is an 80-byte card only when the serialised value is 72 bytes long, i.e. never.  A read as the type just set returns the value just set.", "quantifier": "for every card object holding a full-length card, every value of any supported type", "why_tests_cant": "the claim that no call ever yields an 80-byte card is about every value", "anchors": ["include/boost/astronomy/io/card.hpp: set_value"]}
{"id": "C11", "title": "Raw card strings: accept, reject or out-of-range", "statement": "Constructing a card from a raw string stores the string unchanged exactly when it is at most 80 bytes and has '= ' at columns 9-10, or begins with a reserved keyword (COMMENT, HISTORY, END), or has a blank keyword; strings of at most 80 but fewer than 8 bytes always end in the out-of-range error and everything else is rejected as an invalid card.", "quantifier": "for every byte string", "why_tests_cant": "a decision procedure over all byte strings of every length", "anchors": ["include/boost/astronomy/io/card.hpp: card(std::string)", "include/boost/astronomy/io/default_card_policy.hpp: is_card_valid, in_proper_format, is_reserved_keyword, is_blank"]}
{"id": "C12", "title": "Commentary cards", "statement": "Creating a commentary card with a keyword of at most 8 bytes and keyword+value of at most 78 bytes gives exactly 80 bytes: keyword, two spaces, text, trailing spaces.  With a longer keyword the object is unchanged and invalid-card is reported.  With text that does not fit, the error is a length error and the card has already been overwritten by an over-long string.", "quantifier": "for every card object, keyword and text", "why_tests_cant": "the failing case leaves a modified object only for over-long text, and every length must be considered", "anchors": ["include/boost/astronomy/io/card.hpp: create_commentary_card"]}
{"id": "C13", "title": "Created cards re-parse to equal cards", "statement": "The raw string of every successfully created value card is accepted by the raw-string constructor and gives an equal card with the same keyword; a commentary card built with COMMENT or HISTORY is accepted as well and keeps its keyword, while one built with END keeps the keyword END exactly when the first three bytes of its text are blank, and is accepted as a raw card exactly when the first two are (or bytes four and five of the text are '= ').", "quantifier": "for every accepted keyword, value and comment", "why_tests_cant": "relates two independent code paths on every possible output of the first", "anchors": ["include/boost/astronomy/io/card.hpp: card(std::string), create_card, create_commentary_card, operator=="]}
{"id": "C14", "title": "Value-with-comment text", "statement": "For a created card with keyword, value and comment, the value-with-comment accessor returns the serialised value, followed by ' /' and the comment if there is one, stripped of white space at both ends.", "quantifier": "for every accepted keyword, value and comment", "why_tests_cant": "all contents and lengths", "anchors": ["include/boost/astronomy/io/card.hpp: value_with_comment"]}
{"id": "C15", "title": "Binary scalars: encode and decode are inverse and big-endian", "statement": "Encoding a 16-bit or 32-bit integer, a byte, a character or a 32/64-bit float bit pattern gives exactly the field's width in bytes, most significant byte first; decoding any byte string of at least that width gives the number its first bytes denote in big-endian order; a field one byte short is completed by the terminating NUL of the string and anything shorter is undefined; encoding and decoding are mutually inverse.", "quantifier": "for every bit pattern of every scalar type and every byte string of the right width", "why_tests_cant": "2^64 patterns", "anchors": ["include/boost/astronomy/io/binary_data_converter.hpp: deserialize_to, serialize, element_to_numeric"]}
{"id": "C16", "title": "Binary vectors and complex numbers", "statement": "Decoding the encoding of a list of n scalars (or complex numbers) with element count n returns the list; decoding n elements from a buffer looks only at the first n*width bytes, element i at offset i*width; a buffer one byte short is completed by the terminating NUL, a shorter one is undefined, and the result is never silently shortened.", "quantifier": "for every list of any length and every buffer", "why_tests_cant": "unbounded lengths and contents", "anchors": ["include/boost/astronomy/io/binary_data_converter.hpp: elements_to_numeric_collection, elements_to_complex_collection, element_to_complex, serialize(vector)"]}
{"id": "C17", "title": "Vectors of 32-bit pairs are decoded with overlapping words", "statement": "A single pair decodes correctly, but decoding the encoding of a list of n >= 2 pairs returns pair i made of words i and i+1 instead of words 2i and 2i+1; the list is recovered exactly when all its words except the first are equal.", "quantifier": "for every list of pairs", "why_tests_cant": "a full characterisation of when the result is right is a statement over all lists", "anchors": ["include/boost/astronomy/io/binary_data_converter.hpp: deserialize_to<vector<pair>>"]}
{"id": "C18", "title": "Boolean fields", "statement": "A boolean decodes to true exactly when its first byte is 'T' (an empty field decodes to false); encoding then decoding is the identity on booleans and on lists of booleans; decoding a boolean list yields one entry per byte of the field regardless of the requested element count.", "quantifier": "for every byte string and every boolean list", "why_tests_cant": "unbounded lists and every byte value", "anchors": ["include/boost/astronomy/io/binary_data_converter.hpp: bool specialisations"]}
{"id": "C19", "title": "Element count of a column format", "statement": "The element count of a format string, after removal of surrounding quotes and blanks, is the decimal number in front of its last character, and 1 when there is none; an optional sign is accepted and a minus sign wraps modulo 2^64; formats with any other prefix, or with a number of 2^64 or more, are rejected with the lexical-cast error.", "quantifier": "for every format string", "why_tests_cant": "all strings", "anchors": ["include/boost/astronomy/io/binary_data_converter.hpp: element_count", "include/boost/astronomy/io/binary_table.hpp: element_count"]}
{"id": "C20", "title": "Image data round trip", "statement": "Writing a non-empty image and reading the written bytes back gives the same pixels, and reading any non-empty buffer whose size is a multiple of the pixel width and writing it again gives the same bytes, for 16-bit, 32-bit integer and 32/64-bit float pixels; an empty image is written as nothing, and reading nothing leaves the pixels an image had.", "quantifier": "for every pixel list of any length and every byte buffer", "why_tests_cant": "unbounded size, every bit pattern", "anchors": ["include/boost/astronomy/io/image.hpp: read_image, write_image"]}
{"id": "C21", "title": "8-bit images read as zeros", "statement": "Reading an 8-bit image gives one pixel per byte and every pixel is zero whatever the bytes are, so two different files cannot be told apart after loading.", "quantifier": "for every byte buffer", "why_tests_cant": "'every byte of every buffer is lost' is universal", "anchors": ["include/boost/astronomy/io/image.hpp: read_image", "include/boost/astronomy/io/binary_data_converter.hpp: deserialize_to (generic)", "include/boost/astronomy/io/bitpix.hpp: bitpix_type<B8>"]}
{"id": "C22", "title": "Image statistics", "statement": "For every non-empty image max and min are pixels bounding all pixels, the mean lies between them, the median is a pixel with at most half of the pixels strictly below and at most half strictly above, all are independent of pixel order; for two or more pixels the variance is non-negative, is zero exactly for constant images and is unchanged by adding a constant to all pixels; for one pixel the deviation is NaN (0/0); for an empty image mean and deviation are 0 while max, min and median are undefined.", "quantifier": "for every pixel list (rational pixels)", "why_tests_cant": "algebraic laws over all images", "anchors": ["include/boost/astronomy/io/image.hpp: max, min, mean, median, std_dev"]}
{"id": "C23", "title": "Pixel access after reading a file", "statement": "After an HDU's image was read from a buffer the pixel accessor (x,y) returns element number y for every x: the row index has no effect, because the width is never set (it is 0 in HDUs and uninitialised, hence undefined, in an image declared by the user); on an image with a width it returns element x*width+y.  Out-of-range indices are undefined behaviour.", "quantifier": "for every image, every index pair", "why_tests_cant": "all coordinates of all images", "anchors": ["include/boost/astronomy/io/image.hpp: operator(), read_image"]}
{"id": "C24", "title": "Unit end is the next multiple of 2880 strictly after the position", "statement": "The end-of-unit position computed for any stream position is a multiple of 2880, is strictly greater than the position and at most 2880 further; in particular at a position already on a block boundary a whole extra block is skipped, so it is not the least multiple that is >= the position.", "quantifier": "for every stream position", "why_tests_cant": "all positions", "anchors": ["include/boost/astronomy/io/fits_stream.hpp: find_unit_end, set_unit_end"]}
{"id": "C25", "title": "Written header occupies whole blocks", "statement": "Writing a header at a block boundary writes its cards in order, 80 bytes each, followed only by spaces up to a multiple of 2880 bytes, and the stream is left at that boundary.", "quantifier": "for every list of full-length cards and every aligned start position", "why_tests_cant": "any number of cards", "anchors": ["include/boost/astronomy/io/header.hpp: write_header", "include/boost/astronomy/io/fits_stream.hpp: write, find_unit_end"]}
{"id": "C26", "title": "Bounded reads", "statement": "A read of n bytes with at least n bytes left returns exactly those n bytes and advances by n; with fewer bytes left it returns what is left padded with spaces to n bytes, and from then on every read returns only spaces whatever positions are set; end-of-file is reported after a short read until a position is set and never again after that. Fetching the bytes one by one gives the same as reading them at once; behind the last byte 0 is fetched. What was written at some place, also one given with the call, is read there, and the bytes in front of it and behind it stay.", "quantifier": "for every stream state, every n, every later sequence of reads", "why_tests_cant": "depends on the history of the stream's failure state", "anchors": ["include/boost/astronomy/io/fits_stream.hpp: read, at_end, get_current_pos, get, write (both overloads)"]}
{"id": "C27", "title": "Header write/read round trip", "statement": "Reading a header that was written by the library gives back exactly the same cards in the same order and leaves the reader at the block boundary where the writer stopped, whenever the card list ends with its only END card and declares a supported BITPIX and its axes.", "quantifier": "for every card list with those properties, any length", "why_tests_cant": "unbounded card lists", "anchors": ["include/boost/astronomy/io/header.hpp: read_header, write_header"]}
{"id": "C28", "title": "Header lookup returns the last card with the keyword", "statement": "Looking up a keyword in a header that was read refers to the last card that carries it; contains_keyword says exactly whether some card carries it; absent keywords give the out-of-range error, except BITPIX, NAXIS and the NAXISn counted by NAXIS, which when absent silently refer to the first card.", "quantifier": "for every card list and keyword", "why_tests_cant": "all duplicates and orders", "anchors": ["include/boost/astronomy/io/header.hpp: read_header, value_of, contains_keyword"]}
{"id": "C29", "title": "BITPIX, NAXIS and data size", "statement": "When a header is read successfully the pixel type is one of the five standard values as written on the BITPIX card and the axes are the NAXISn values in order, as many as NAXIS says (an absent keyword is taken from the first card); data_size() is the product of the axes modulo 2^64, 0 without axes - a number of elements, not of bytes.  Any other BITPIX value makes the read fail with the fits error.", "quantifier": "for every header", "why_tests_cant": "all axis counts and values", "anchors": ["include/boost/astronomy/io/header.hpp: read_header, data_size, naxis, bitpix", "include/boost/astronomy/io/bitpix.hpp: get_element_size_from_bitpix"]}
{"id": "C30", "title": "Headers without END never finish", "statement": "Cut the file into 80-byte pieces from the current position on, completed by blanks behind the end of the file: if no piece is an END card and all are acceptable as cards, reading the header never terminates; otherwise it stops at the first piece that is an END card, having consumed exactly the cards up to it, or at the first unacceptable piece with the invalid-card error.", "quantifier": "for every file content whose cards are valid", "why_tests_cant": "non-termination cannot be observed by a test", "anchors": ["include/boost/astronomy/io/header.hpp: read_header", "include/boost/astronomy/io/fits_stream.hpp: read, at_end"]}
{"id": "C31", "title": "File write/open round trip", "statement": "Opening a file yields exactly the HDUs laid out in it (headers at block boundaries, data at the next boundary), in order. HDUs that carry data fitting their headers, with pixels and cells possibly replaced since they were read, are written to a file that opens with the same number of HDUs, in the same order, each with the same header cards, columns, pixels and cells.", "quantifier": "for every list of HDUs with data, any number and size", "why_tests_cant": "unbounded lists; alignment of each HDU depends on all previous ones", "anchors": ["include/boost/astronomy/io/fits_reader.hpp: read_entire_hdus, write_to", "include/boost/astronomy/io/fits.hpp: open"]}
{"id": "C32", "title": "HDUs without data break the round trip", "statement": "Writing an HDU whose data is empty emits a full extra block of padding which the reader does not skip: a file written from a data-less HDU followed by anything (or nothing) is not read back as the same list of HDUs.", "quantifier": "for every data-less HDU header and every following content", "why_tests_cant": "universal over headers; includes a non-terminating re-open", "anchors": ["include/boost/astronomy/io/primary_hdu.hpp: write_to", "include/boost/astronomy/io/image.hpp: write_image", "include/boost/astronomy/io/fits_reader.hpp: read_entire_hdus"]}
{"id": "C33", "title": "HDU access by name and by index", "statement": "Access by index i returns the i-th HDU in file order and fails beyond the end; access by name returns the last HDU with that name, so of several HDUs sharing a name only the last is reachable; the control block has exactly one entry for every name there is, with the index and the header and data positions of the last HDU of that name.", "quantifier": "for every list of HDUs, every index and name", "why_tests_cant": "all collisions", "anchors": ["include/boost/astronomy/io/fits_reader.hpp: control_block, operator[]"]}
{"id": "C34", "title": "HDU kind is decided by SIMPLE and XTENSION", "statement": "The name of a header is its XTENSION string when that card is present and readable as a string, otherwise 'primary_hdu' when SIMPLE is readable as a boolean. The object built is a primary HDU whenever a SIMPLE card is present; otherwise XTENSION = TABLE and BINTABLE give ASCII and binary tables and every other extension type (IMAGE included) gives an empty HDU.", "quantifier": "for every header", "why_tests_cant": "decision logic over all keyword values", "anchors": ["include/boost/astronomy/io/header.hpp: get_hdu_name", "include/boost/astronomy/io/default_hdus.hpp: construct_hdu, generate_extension_hdu"]}
{"id": "C35", "title": "Write order and dropped HDUs", "statement": "Writing a file emits the HDUs in list order; HDUs of unsupported kind contribute no bytes at all, so the output equals that of the list with them removed.", "quantifier": "for every HDU list", "why_tests_cant": "unbounded lists", "anchors": ["include/boost/astronomy/io/fits_reader.hpp: write_to", "include/boost/astronomy/io/default_hdus.hpp: hdu writer visitor"]}
{"id": "C36", "title": "ASCII table cells", "statement": "Cell (row, column) of an ASCII table is the white-space-trimmed text of the column's bytes in that row: bytes TBCOL..TBCOL+width-1 (1-based) behind row*NAXIS1 (modulo 2^64); parsing succeeds exactly when every such field lies in the buffer, otherwise (also TBCOL = 0) the iterators are invalid and the behaviour is undefined; the columns are those the cards TFORMn, TBCOLn, TTYPEn, TUNITn, TSCALn, TZEROn describe.", "quantifier": "for every buffer, row length, row count and column layout", "why_tests_cant": "all layouts and contents", "anchors": ["include/boost/astronomy/io/ascii_table.hpp: set_table_data"]}
{"id": "C37", "title": "ASCII table write/parse", "statement": "Writing an ASCII table whose columns are contiguous, start at byte 1, have positive widths and have cells no longer than the column width emits rows of exactly NAXIS1 bytes, and parsing that output gives the same (trimmed) cells; a cell longer than its column is a length error; gaps between columns are not reproduced.", "quantifier": "for every table with such a layout", "why_tests_cant": "unbounded rows/columns", "anchors": ["include/boost/astronomy/io/ascii_table.hpp: write_to, set_table_data, column_size"]}
{"id": "C38", "title": "Binary table cells lose white-space bytes at their ends", "statement": "Cell (row, column) of a binary table is the column's bytes of that row (columns laid out one after another) with white-space bytes (9-13, 32) removed from both ends; it equals the stored bytes exactly when the field neither begins nor ends with such a byte.", "quantifier": "for every buffer and layout", "why_tests_cant": "corruption depends on particular byte values in particular positions", "anchors": ["include/boost/astronomy/io/binary_table.hpp: set_table_data"]}
{"id": "C39", "title": "Binary table write/parse", "statement": "Writing a parsed binary table reproduces the original row bytes exactly when no field begins or ends with a white-space byte; otherwise the written table is shorter than the original and following fields are shifted.", "quantifier": "for every buffer and layout", "why_tests_cant": "unbounded rows; any byte", "anchors": ["include/boost/astronomy/io/binary_table.hpp: write_to, set_table_data"]}
{"id": "C40", "title": "Column widths", "statement": "The width of a binary column is its repeat count (1 if absent) times the size of its type letter (L,X,B,A 1; I 2; J,E 4; D,C,P 8; M 16) modulo 2^64, any other letter is rejected; the width of an ASCII column is the decimal number between its first character and the first '.', if any; if the format starts with '.', everything behind it must be the number.", "quantifier": "for every format string", "why_tests_cant": "all strings", "anchors": ["include/boost/astronomy/io/binary_table.hpp: column_size, type_size, get_type", "include/boost/astronomy/io/ascii_table.hpp: column_size, get_type"]}
{"id": "C41", "title": "Binary columns tile the row", "statement": "In a binary table the columns occupy consecutive, non-overlapping byte ranges starting at offset 0, in the order of their numbers, each as wide as its format says; the start reported for column k is the sum of the widths before it.", "quantifier": "for every list of formats", "why_tests_cant": "unbounded column lists", "anchors": ["include/boost/astronomy/io/binary_table.hpp: populate_column_data, set_table_data"]}
{"id": "C42", "title": "A column view behaves like an array of typed cells", "statement": "For every sequence of reads, writes (update_value), assignments through column[row] = x and loops over the columns of a table object, each column used with one element type, the results are those of plain arrays initialised by decoding the stored cells: a read returns the last value written to that row, or else the decoded cell (or its decoding error); writes change only the addressed cell of the table; reads never change the table.", "quantifier": "for every interleaving of operations of any length, every table", "why_tests_cant": "caching makes the answer depend on history", "anchors": ["include/boost/astronomy/io/column_data.hpp: column_view operator[], update_value, Proxy, iterator"]}
{"id": "C43", "title": "Column lookup by name", "statement": "Looking up a column returns the first column whose name matches and fails with column-not-found exactly when there is none.", "quantifier": "for every column list and name", "why_tests_cant": "duplicates and all orders", "anchors": ["include/boost/astronomy/io/table_extension.hpp: get_column_metadata"]}
{"id": "C44", "title": "Column views survive replacing the table data", "statement": "A column view obtained before the table data are replaced is served again from the cache afterwards, and cells already read keep their old values; only cells not read before show the new data.", "quantifier": "for every pair of buffers and every earlier sequence of reads", "why_tests_cant": "history dependent", "anchors": ["include/boost/astronomy/io/ascii_table.hpp: set_data, get_column", "include/boost/astronomy/io/column_data.hpp: column_view"]}
{"id": "C45", "title": "A column has one element type per table object", "statement": "The first typed access to a column name fixes the element type: later accesses with the same type succeed and share state, accesses with another type fail with bad-get, in any order of other operations.", "quantifier": "for every history of column accesses", "why_tests_cant": "history dependent", "anchors": ["include/boost/astronomy/io/ascii_table.hpp: get_column", "include/boost/astronomy/io/binary_table.hpp: get_column"]}
{"id": "C46", "title": "Julian date counts days", "statement": "For every date after 1 October 1582 the Julian date equals the number of days counted in the (proleptic) Gregorian calendar plus a constant, without any rounding error; consecutive calendar days differ by exactly one.", "quantifier": "for every valid date with year from 1582 on", "why_tests_cant": "an unbounded number of dates with leap-year, month-length and century rules", "anchors": ["include/boost/astronomy/time/time_conversions.hpp: julian_date"]}
{"id": "C47", "title": "Julian calendar dates and the switch", "statement": "For dates up to 1 October 1582 the Julian date is the number of days counted in the Julian calendar plus a constant; since the date type only knows Gregorian dates the step over 28 February of a year like 1500 is two days and all others are one. Dates from 2 October 1582 are counted as Gregorian, so the number is not monotone across the switch: 2 October 1582 gets a number nine days smaller than 1 October 1582 and ten pairs of dates share a number; on each side it is strictly increasing.", "quantifier": "for every valid date before the switch", "why_tests_cant": "unbounded dates; the anomaly is at one place", "anchors": ["include/boost/astronomy/time/time_conversions.hpp: julian_date"]}
{"id": "C48", "title": "Julian date ignores the time of day", "statement": "The Julian date depends on the date only: it is the same for all times of a day and always ends in .5.", "quantifier": "for every date and time of day", "why_tests_cant": "all times", "anchors": ["include/boost/astronomy/time/time_conversions.hpp: julian_date"]}
{"id": "C49", "title": "Sidereal time is in [0,24) hours and follows its formula modulo 24", "statement": "In exact arithmetic greenwich sidereal time always lies in [0,24) and differs from 6.697374558 + 2400.051336 T + 0.000025862 T^2 + 1.002737909 UT by a whole multiple of 24 hours.", "quantifier": "for every date and time; rational arithmetic without rounding", "why_tests_cant": "the wrap-around loops must be right for every magnitude and sign", "anchors": ["include/boost/astronomy/time/time_conversions.hpp: GST"]}
{"id": "C50", "title": "Local sidereal time", "statement": "In exact arithmetic local sidereal time lies in [0,24) and equals Greenwich sidereal time plus longitude/15 hours for EAST and minus longitude/15 for WEST, modulo 24, for every longitude of either sign; longitudes that differ by 360 degrees give equal results.", "quantifier": "for every date, longitude and direction; rational arithmetic without rounding", "why_tests_cant": "all longitudes incl. large ones", "anchors": ["include/boost/astronomy/time/time_conversions.hpp: LST"]}
{"id": "C51", "title": "Decimal hours split into hours, minutes and seconds", "statement": "Splitting a decimal number of hours gives hours + minutes/60 + seconds/3600 equal to the input, with |minutes| < 60 and |seconds| < 60 and all parts carrying the sign of the input.", "quantifier": "for every rational decimal hour, arithmetic without rounding", "why_tests_cant": "every value near a carry boundary", "anchors": ["include/boost/astronomy/time/parser.hpp: decimal_hour"]}
{"id": "C52", "title": "Decimal hours built from parts forget the parts", "statement": "Building a decimal hour from hours, minutes and seconds gives hours + minutes/60 + seconds/3600 as value (within 2^-47 hours in double arithmetic, for a day's worth), but the parts it reports are all zero, whatever was passed.", "quantifier": "for every triple of rational numbers without rounding; for every triple within a day with rounding to nearest", "why_tests_cant": "universal", "anchors": ["include/boost/astronomy/time/parser.hpp: decimal_hour(hours,minutes,seconds)"]}
{"id": "C53", "title": "Rotation matrices preserve lengths and angles", "statement": "The conversion matrices between hour-angle/declination and horizon, hour-angle and right-ascension systems, and ecliptic and right-ascension systems are orthogonal for every angle: converted direction vectors keep unit length and mutual angles.", "quantifier": "for every latitude, sidereal time and obliquity", "why_tests_cant": "continuous parameters", "anchors": ["include/boost/astronomy/coordinate/utility/utility.hpp: ha_dec_horizon, ha_dec_ra_dec, ecliptic_to_ra_dec, ra_dec_to_ecliptic"]}
{"id": "C54", "title": "Horizon and hour-angle conversions are involutions", "statement": "Applying the hour-angle/horizon matrix twice, or the hour-angle/right-ascension matrix twice, returns the original vector, so the same matrix serves both directions.", "quantifier": "for every latitude / sidereal time and every vector", "why_tests_cant": "continuous parameters", "anchors": ["include/boost/astronomy/coordinate/utility/utility.hpp: ha_dec_horizon, ha_dec_ra_dec"]}
{"id": "C55", "title": "Ecliptic conversions are mutually inverse", "statement": "Converting ecliptic to equatorial and back (and the other way round) returns the original vector.", "quantifier": "for every obliquity and vector; real numbers, arithmetic without rounding", "why_tests_cant": "continuous parameters", "anchors": ["include/boost/astronomy/coordinate/utility/utility.hpp: ecliptic_to_ra_dec, ra_dec_to_ecliptic"]}
{"id": "C56", "title": "Galactic conversions are not inverse to each other", "statement": "The equatorial-to-galactic and galactic-to-equatorial matrices do not undo each other: the celestial and the galactic north pole come back more than 36 degrees away. Each matrix alone is orthogonal to within 1e-6 in every entry of M M^T - I, the transpose of the equatorial-to-galactic matrix would invert it to 1e-6, and the matrix used instead is the forward matrix with the second axis mirrored on both sides.", "quantifier": "for every vector (inversion by the transpose, mirrored form), concrete directions for the failure; real numbers, arithmetic without rounding", "why_tests_cant": "norm distortion bound over all vectors", "anchors": ["include/boost/astronomy/coordinate/utility/utility.hpp: galactic_to_ra_dec, ra_dec_to_galactic"]}
{"id": "C57", "title": "Direction vectors and angles", "statement": "The column vector of two angles is a unit vector, and extracting angles from the column vector of (u,v) returns (u,v) whenever -pi < u <= pi and -pi/2 < v < pi/2; from every vector the first angle extracted is in (-pi, pi] and the second, if the third component allows one, in [-pi/2, pi/2].", "quantifier": "for every pair of angles; real numbers, arithmetic without rounding", "why_tests_cant": "continuous ranges with branch cuts", "anchors": ["include/boost/astronomy/coordinate/utility/utility.hpp: column_vector, extract_coordinates"]}
{"id": "C58", "title": "Coordinate conversion round trip on angles", "statement": "For the hour-angle, horizon and ecliptic matrices, converting angles to a vector, applying the matrix, extracting angles and repeating with the inverse matrix returns the original angles for every point that is not at a pole of the system one starts in; at a pole the first angle becomes 0.", "quantifier": "for every angle pair in range, every parameter; real numbers, arithmetic without rounding", "why_tests_cant": "composition of branch cuts and rotations", "anchors": ["include/boost/astronomy/coordinate/utility/utility.hpp: all conversions"]}
{"id": "C59", "title": "Cartesian and spherical representations convert back and forth", "statement": "Converting a representation between Cartesian, spherical and spherical equatorial form, in any units, keeps the vector it stands for. A Cartesian representation converted to any type and back is the same object for every vector, including zero components; a spherical form with positive distance and angles in the principal ranges converted to any type and back is the same object. Converted angles are in the principal ranges and distances are not negative; a zero vector leaves the second angle indeterminate.", "quantifier": "for every representation, every pair of types and all positive units; real numbers, arithmetic without rounding", "why_tests_cant": "branch cuts and singular points", "anchors": ["include/boost/astronomy/coordinate/rep/*.hpp: make_cartesian_representation, make_spherical_representation, make_spherical_equatorial_representation"]}
{"id": "C60", "title": "Dot and cross products do not depend on units", "statement": "The physical value of dot and cross product is unchanged when either argument is expressed in other units, mixed units per axis included; cross is anti-symmetric, orthogonal to both arguments, and |a x b|^2 + (a.b)^2 = |a|^2 |b|^2.", "quantifier": "for all vectors and positive unit scales; real numbers, arithmetic without rounding", "why_tests_cant": "continuous, nine unit combinations per argument", "anchors": ["include/boost/astronomy/coordinate/arithmetic.hpp: cross, dot, magnitude"]}
{"id": "C61", "title": "Unit vectors", "statement": "The magnitude is the length of the vector (its negative for a spherical vector with negative distance). The unit vector of a non-zero Cartesian vector has magnitude one and the original direction when its axes share one unit, and a different direction when they do not; of a zero vector it is NaN. For spherical vectors the angles are kept and the distance becomes 1.", "quantifier": "for every non-zero vector; real numbers, arithmetic without rounding", "why_tests_cant": "continuous", "anchors": ["include/boost/astronomy/coordinate/arithmetic.hpp: unit_vector"]}
{"id": "C62", "title": "Sum and mean of representations", "statement": "Sum and mean are computed componentwise on physical values: sum is commutative and associative in physical value, mean(a,a)=a, 2*mean(a,b)=sum(a,b), also when the arguments are given in different units or different representations.", "quantifier": "for all vectors, units, and representation kinds; real numbers, arithmetic without rounding", "why_tests_cant": "continuous", "anchors": ["include/boost/astronomy/coordinate/arithmetic.hpp: sum, mean", "include/boost/astronomy/coordinate/rep/cartesian_representation.hpp: operator+"]}
{"id": "C63", "title": "Equality of representations ignores units", "statement": "Two representations compare equal exactly when the Cartesian numbers stored agree: equality is reflexive, symmetric and transitive, but vectors of different physical length compare equal when their unit differs, and equal physical vectors in different units compare unequal.", "quantifier": "for all pairs of representations; real numbers, arithmetic without rounding", "why_tests_cant": "all units", "anchors": ["include/boost/astronomy/coordinate/rep/base_representation.hpp: operator=="]}
{"id": "C64", "title": "Differential algebra", "statement": "Addition of differentials adds the vectors they stand for, in every system and unit, and commutes and associates. Multiplying by a quantity multiplies the vector and distributes over addition; for an angular differential in the principal ranges it keeps the angles and scales only the radial component, and when the radial component is 0 the angular components are lost (the first becomes 0, the second is indeterminate). magnitude and unit_vector give length and direction when the axes share a unit.", "quantifier": "for all differentials, quantities and positive units; real numbers, arithmetic without rounding", "why_tests_cant": "continuous", "anchors": ["include/boost/astronomy/coordinate/diff/*.hpp: operator+, operator*"]}
{"id": "C65", "title": "Round trip through cos(lat)-weighted differentials", "statement": "A differential converted to the coslat form and back to Cartesian comes back unchanged exactly when its vector has x > 0 or lies on the z axis; with x < 0 it comes back turned by half a turn about z, with x = 0 and y not 0 it comes back on the z axis with the same length.", "quantifier": "for all Cartesian and equatorial differentials and all spherical ones in the principal ranges, all positive units; real numbers, arithmetic without rounding", "why_tests_cant": "continuous with sign change", "anchors": ["include/boost/astronomy/coordinate/diff/spherical_coslat_differential.hpp: make_spherical_coslat_differential, make_cartesian_differential"]}
{"id": "C66", "title": "Angular separation", "statement": "The angular separation is the angle between the directions whose azimuth is the first stored angle and whose polar angle is the second; it is symmetric, in [0,pi], 0 from a point to itself, obeys the triangle inequality and does not depend on non-zero distances (with a zero distance it is NaN). Because frames store the latitude first and the longitude second, it is the separation in latitude and longitude only under an exact trigonometric condition; all points of longitude 0 are 0 apart.", "quantifier": "for all pairs of points; real numbers, arithmetic without rounding", "why_tests_cant": "continuous", "anchors": ["include/boost/astronomy/coordinate/sky_point.hpp: separation", "include/boost/astronomy/coordinate/ref_frame/base_frame.hpp: get_angular_separation"]}
{"id": "C67", "title": "Position angle", "statement": "The positional angle is the bearing, from north over east, of the second point seen from the first. It is in (-pi, pi], unchanged by a common longitude offset or whole turns, changes its sign with the longitude difference (except that pi stays pi), and is 0 for a point to the north and pi for one to the south on the same meridian.", "quantifier": "for all pairs of points; real numbers, arithmetic without rounding", "why_tests_cant": "continuous", "anchors": ["include/boost/astronomy/coordinate/sky_point.hpp: positional_angle"]}
{"id": "C68", "title": "Frame accessors", "statement": "After any sequence of setter calls every getter of a frame returns the value of the last call that concerns it, in the unit it was given in, and the value from before if there was none: setters of one coordinate do not disturb the others, the motion or the attributes. Constructors from quantities, from representations in other units and the copy constructor of alt_az agree with that.", "quantifier": "for every frame object and every sequence of setter calls; real numbers, arithmetic without rounding", "why_tests_cant": "history dependent", "anchors": ["include/boost/astronomy/coordinate/ref_frame/*.hpp"]}
{"id": "C69", "title": "Obliquity of the ecliptic", "statement": "The obliquity follows the cubic polynomial 23.439292 deg - 46.815\" t - 0.0006\" t^2 + 0.00181\" t^3 in centuries from J2000, and stays between 23.1 and 23.8 degrees and strictly decreases from day to day within 20 centuries of J2000.", "quantifier": "for every Julian day in that interval; real numbers, arithmetic without rounding", "why_tests_cant": "continuous bound", "anchors": ["include/boost/astronomy/coordinate/utility/utility.hpp: obliquity_of_ecliptic"]}
{"id": "C70", "title": "Two-angle coordinate systems store what was given", "statement": "Constructing or setting horizon, equatorial, ecliptic or galactic coordinates in any angle unit and reading them in the same unit returns the values given, and the two angles do not influence each other.", "quantifier": "for all values, units and setter sequences; real numbers, arithmetic without rounding", "why_tests_cant": "continuous", "anchors": ["include/boost/astronomy/coordinate/coord_sys/*.hpp"]}
{"id": "C71", "title": "BITPIX and NAXIS values are frozen to one type", "statement": "After a header was read, value_of for BITPIX succeeds exactly as int, and for NAXIS and NAXISn exactly as size_t, with the number the header holds for the axis; any other type gives bad_get, because reading the header has already cached the value on the card.", "quantifier": "for every header read from any file, every requested type", "why_tests_cant": "all requested types and headers; depends on the hidden cache state", "anchors": ["include/boost/astronomy/io/header.hpp: read_header, value_of", "include/boost/astronomy/io/card.hpp: value"]}
{"id": "C72", "title": "Column names that are structural keywords", "statement": "A table whose header names one of its columns BITPIX, NAXIS, NAXISn (n up to NAXIS), GCOUNT, PCOUNT or TFIELDS can never be opened: the constructor looks the column name up as a keyword, asks for a string, and the already cached numeric value makes it fail.", "quantifier": "for every header, buffer, column number and both table kinds", "why_tests_cant": "depends on which cards were read earlier with which type, and only on particular names", "anchors": ["include/boost/astronomy/io/ascii_table.hpp: populate_column_data", "include/boost/astronomy/io/binary_table.hpp: populate_column_data", "include/boost/astronomy/io/card.hpp: value"]}
{"id": "C73", "title": "Assignment through column[row] needs the old value to decode", "statement": "column[row] = x first decodes the old cell; if that fails the assignment fails with the decoding error and the table is unchanged, although update_value(row, x) succeeds and stores the text of x.", "quantifier": "for every table, column, row, element type, old text that does not decode and new value", "why_tests_cant": "only for cells with undecodable content (for example blank numeric cells)", "anchors": ["include/boost/astronomy/io/column_data.hpp: operator[], Proxy, update_value"]}
{"id": "C74", "title": "Numbers in binary table cells", "statement": "A w-byte number read from a binary table cell is the big-endian value of its field exactly as long as the field neither begins nor ends with a white-space byte (9-13, 32); one such byte at the end is replaced by 0, one at the beginning shifts the number by 8 bits, and with two or more the code reads outside the string.", "quantifier": "for every width and field content", "why_tests_cant": "depends on particular byte values", "anchors": ["include/boost/astronomy/io/binary_table.hpp: set_table_data", "include/boost/astronomy/io/binary_data_converter.hpp: element_to_numeric"]}
{"id": "C75", "title": "Truncated files", "statement": "A file cut off inside the data of its last HDU never opens completely; when that HDU can still be built, read_entire_hdus does not terminate, while read_only_headers terminates and lists every HDU.", "quantifier": "for every list of complete HDUs followed by a cut one", "why_tests_cant": "non-termination; all layouts", "anchors": ["include/boost/astronomy/io/fits_reader.hpp: read_entire_hdus, read_only_headers, extract_data_buffer"]}
{"id": "C76", "title": "Reusing a reader", "statement": "initialize() with another file keeps the HDU list: after reading, indices still start with the HDUs of the previous file, while names and total_hdus refer to the new file only.", "quantifier": "for every reader state and every file", "why_tests_cant": "all states and files", "anchors": ["include/boost/astronomy/io/fits_reader.hpp: initialize, read_entire_hdus, operator[]"]}
{"id": "C77", "title": "Headers-only mode", "statement": "read_only_headers returns exactly the HDUs whose headers follow each other with the announced data skipped; for a file that opens completely it returns the same HDUs without data and the same control block entries.", "quantifier": "for every file content", "why_tests_cant": "all contents; equivalence of two loops", "anchors": ["include/boost/astronomy/io/fits_reader.hpp: read_only_headers, control_block"]}
{"id": "C78", "title": "Wrapping data length in headers-only mode", "statement": "The position after the data is computed in 64 bits: when position plus announced length wraps so that the next block boundary is the start of the same header, read_only_headers never terminates.", "quantifier": "for every file with such a header behind any number of HDUs", "why_tests_cant": "non-termination; needs announced sizes no test file has", "anchors": ["include/boost/astronomy/io/fits_reader.hpp: read_only_headers", "include/boost/astronomy/io/fits_stream.hpp: set_reading_pos, set_unit_end"]}
{"id": "C79", "title": "Writing after headers-only mode loses the data", "statement": "Writing a reader that was filled by read_only_headers succeeds and produces, for each HDU of known kind, its cards padded to a block boundary followed by one block of blanks instead of the data.", "quantifier": "for every file", "why_tests_cant": "all files", "anchors": ["include/boost/astronomy/io/fits_reader.hpp: read_only_headers, write_to"]}
{"id": "C80", "title": "Sidereal time ignores fractions of a second", "statement": "Two times that differ only in the fraction of their second have the same Greenwich and local sidereal time; whole seconds alone are used.", "quantifier": "for every time, longitude and direction and every rounding of double", "why_tests_cant": "universal", "anchors": ["include/boost/astronomy/time/time_conversions.hpp: GST"]}
{"id": "C82", "title": "What the conversion matrices mean", "statement": "The hour-angle matrix takes an hour angle to sidereal time minus hour angle at the same declination. The horizon matrix takes the celestial pole to the north at the altitude of the latitude, the zenith declination to the zenith and the hour angle 90 degrees to the west point, and gives the altitude of the astronomical triangle. The ecliptic matrix fixes the equinox and takes the summer solstice to the obliquity and the ecliptic pole to right ascension 270 degrees. The galactic matrix takes the galactic pole and centre of 1950 to latitude 90 and longitude 0 within 8 degrees.", "quantifier": "for every latitude, sidereal time, obliquity and pair of angles", "why_tests_cant": "A handful of converted stars cannot show that the formulas hold for all angles, and a matrix can be orthogonal and still rotate the wrong way.", "anchors": ["include/boost/astronomy/coordinate/utility/utility.hpp: ha_dec_horizon, ha_dec_ra_dec, ecliptic_to_ra_dec, ra_dec_to_galactic, column_vector"]}
{"id": "C83", "title": "Quantities, units and to_representation", "statement": "The getters of a representation return the quantities it was constructed from, in every unit. Changing the units with make_*_representation keeps the vector. to_representation keeps the numbers instead and ignores units: its result compares equal to the source but stands for a vector stretched by the ratio of the units.", "quantifier": "for all representations, types and positive units; real numbers, arithmetic without rounding", "why_tests_cant": "universal over units and values; tests use one unit at a time", "anchors": ["include/boost/astronomy/coordinate/rep/base_representation.hpp: to_representation", "include/boost/astronomy/coordinate/rep/cartesian_representation.hpp: make_cartesian_representation, get_x_y_z", "include/boost/astronomy/coordinate/rep/spherical_representation.hpp: make_spherical_representation, get_lat_lon_dist"]}
{"id": "C84", "title": "cos(lat)-weighted differentials: getters, sum, product", "statement": "The getters of a coslat differential return what it was constructed from. Its operator+ reads the stored dlon*cos(dlat) as a plain dlon, so that the sum stands for the wrong vector and adding zero multiplies dlon*cos(dlat) by cos(dlat) once more. Its operator* scales the distance and keeps the angles when dlon*cos(dlat) is in (0, pi), but for a negative dlon*cos(dlat) it turns the vector by half a turn.", "quantifier": "for all coslat differentials, addends, factors and positive units; real numbers, arithmetic without rounding", "why_tests_cant": "continuous, wrong only for some signs", "anchors": ["include/boost/astronomy/coordinate/diff/spherical_coslat_differential.hpp: operator+, operator*, get_dlat_dlon_coslat_ddist"]}
{"id": "C81", "title": "get_proper_motion ignores units", "statement": "base_frame::get_proper_motion returns the stored radians labelled with the units of the differential: it agrees with the proper motion getters of the frame exactly when each proper motion is 0 or its unit is the radian.", "quantifier": "for every frame object; real numbers, arithmetic without rounding", "why_tests_cant": "depends on the unit; existing tests use one unit", "anchors": ["include/boost/astronomy/coordinate/ref_frame/base_frame.hpp: get_proper_motion"]}
{"id": "C85", "title": "Primary HDUs and image extensions hold what cards and data say", "statement": "An HDU with a SIMPLE card becomes a primary HDU exactly when SIMPLE and EXTEND are both readable as T or F (nothing asks that SIMPLE be T); simple, extend, pixel type and pixels are those of the cards and the data, the cards are kept. Otherwise the exception is that of the first of the two that fails. The same holds for image extensions with GCOUNT, PCOUNT and EXTNAME. Asking for the image with the wrong pixel type is undefined behaviour, never an exception. Writing an image extension appends its cards and big-endian pixels in whole blocks.", "quantifier": "for every header read from any stream with BITPIX, NAXIS and NAXISn present, and every data buffer", "why_tests_cant": "universal over header contents and pixel data; failures depend on which card fails first", "anchors": ["include/boost/astronomy/io/primary_hdu.hpp: primary_hdu(fits_reader), set_primary_hdu_info", "include/boost/astronomy/io/image_extension.hpp: constructor, get_data, write_to", "include/boost/astronomy/io/default_hdus.hpp: construct_hdu"]}
{"id": "C86", "title": "Which table headers are accepted", "statement": "A table extension is accepted exactly when GCOUNT, PCOUNT, EXTNAME and TFIELDS are there and readable; for every column 1..TFIELDS TFORM (and TBCOL for ASCII tables) is readable, and TTYPE, the text under the column name, TUNIT, TSCAL, TZERO (and TDISP, TDIM for binary tables) are absent or readable; a binary TFORM is a known type; and, if there are data, NAXIS1 and NAXIS2 exist and every cell lies inside the data. Of the first four, the first to fail decides the exception; data too short for what the cards announce are not refused but undefined behaviour.", "quantifier": "for every header read from any stream whose columns are not named like a keyword read as a number, and every data buffer", "why_tests_cant": "universal over header contents; the silent undefined behaviour cannot be asserted by a test", "anchors": ["include/boost/astronomy/io/extension_hdu.hpp: set_extension_info", "include/boost/astronomy/io/table_extension.hpp: set_table_extension_info", "include/boost/astronomy/io/ascii_table.hpp: populate_column_data, set_table_data", "include/boost/astronomy/io/binary_table.hpp: populate_column_data, set_table_data"]}
{"id": "C87", "title": "Typed values survive writing and parsing a table", "statement": "The bytes written for a value of any column type are those the FITS standard prescribes, and decode to the value (except arrays of pairs). After parsing, which removes white-space bytes at the ends of a cell, the value is found again exactly when its bytes neither begin nor end with a white-space byte: a lost byte is never made up for by chance. After any sequence of typed operations, writing the table and parsing what was written, every column holds the values it held before, if the cells keep their widths and have no outer white space; for ASCII tables also if floating point numbers survive being printed.", "quantifier": "for all column types, values, element counts, tables and sequences of operations", "why_tests_cant": "universal over values: about one number in twenty begins or ends with a white-space byte, tests use small numbers", "anchors": ["include/boost/astronomy/io/binary_data_converter.hpp: serialize, deserialize_to", "include/boost/astronomy/io/string_conversion_utility.hpp", "include/boost/astronomy/io/column_data.hpp", "include/boost/astronomy/io/binary_table.hpp: set_table_data, write_to", "include/boost/astronomy/io/ascii_table.hpp: set_table_data, write_to"]}
{"id": "C88", "title": "Greenwich sidereal time in double arithmetic", "statement": "Also when every operation (and every decimal constant) is rounded to the nearest double, Greenwich sidereal time is in [0,24) - never 24 through rounding - and up to whole days within 1e-9 hours (four microseconds) of the value of the formula for the exact day count and universal time.", "quantifier": "for every date boost can represent, every time of day, and every way to break ties in rounding to nearest", "why_tests_cant": "needs a bound on accumulated rounding error for every date; the wrap at 24 is hit by rounding alone", "anchors": ["include/boost/astronomy/time/time_conversions.hpp: GST"]}
{"id": "C89", "title": "Local sidereal time in double arithmetic", "statement": "When every operation is rounded to the nearest double, local sidereal time is within 2^-46 hours of Greenwich sidereal time plus (east) or minus (west) longitude/15 up to whole days, greater than -2^-1000 and at most 24. It can be 24: whenever the sidereal time of Greenwich is between 1/2 and 15/8 hours some western longitude below 29 degrees yields exactly 24.0 and 24 hours instead of 0.", "quantifier": "for every representable date, time of day, longitude up to 720 degrees, direction and tie rule", "why_tests_cant": "the boundary value is reached for isolated doubles only and depends on rounding", "anchors": ["include/boost/astronomy/time/time_conversions.hpp: LST"]}
{"id": "C90", "title": "Decimal hours in double arithmetic", "statement": "When every operation is rounded to the nearest double, the hours, minutes and seconds of a decimal hour have its sign, minutes and seconds stay strictly below 60, and they add up to it within 2^-53 hours; the conversion is defined exactly for doubles whose integral part fits the 64-bit integer it is stored in.", "quantifier": "for every double and every tie rule", "why_tests_cant": "universal over doubles; rounding up to 60 would show for isolated values only", "anchors": ["include/boost/astronomy/time/parser.hpp: decimal_hour"]}
{"id": "C91", "title": "Card count, number of axes and comparison of headers", "statement": "card_count() of a header read from a file is the number of cards before END, so that END is the card with that number; a header that has read nothing reports 2^64-1 cards. total_dimensions() is the number on the NAXIS card. Two headers read from files are equal exactly when their cards are the same; reading values, in any number and as any type, does not change what a header is equal to, but get_hdu_name() on an extension header makes it unequal to what it was before.", "quantifier": "for all streams, headers read from them and sequences of value reads", "why_tests_cant": "universal over header contents; that a getter changes equality shows only for particular call sequences", "anchors": ["include/boost/astronomy/io/header.hpp: card_count, total_dimensions, operator==, get_hdu_name"]}
{"id": "C92", "title": "Cards created from C strings", "statement": "create_card with a C string puts the text right-justified into twenty columns without quotes, refuses more than twenty bytes with length_error (a std::string may have 68) and leaves a refused card as it was; the card is the same as that of the number or truth value with this text. Read as a string it comes back without outer white space when no / interferes and it does not begin with a quote; in quotes it comes back without them; a lone quote is undefined behaviour.", "quantifier": "for all keywords, texts and comments", "why_tests_cant": "overload resolution silently picks the numeric template; depends on text contents", "anchors": ["include/boost/astronomy/io/card.hpp: create_card", "include/boost/astronomy/io/default_card_policy.hpp: serialize_to_fits_format"]}
{"id": "C93", "title": "Frames built from a position and a motion", "statement": "A frame built from a representation and a differential stands for the same position in the frame's units and leaves its attributes alone. A coslat differential keeps its three quantities in the frame's units, and rebuilding a frame from its own position and motion gives the same values. Of a plain spherical differential the frame stores dlon times the cosine of dlat, the motion itself: the stored motion never depends on the position, so pm_lon_coslat is the proper motion times the cosine of the position's latitude exactly when that cosine happens to be the cosine of dlat. A sky_point holds the frame its constructor made or the last one it was given.", "quantifier": "for all frames, representations, differentials and units", "why_tests_cant": "universal over real values and units; a test at latitude 0 with a tiny motion cannot see the wrong weight", "anchors": ["include/boost/astronomy/coordinate/ref_frame/base_equatorial_frame.hpp", "include/boost/astronomy/coordinate/ref_frame/base_ecliptic_frame.hpp", "include/boost/astronomy/coordinate/coord_sys/galactic.hpp", "include/boost/astronomy/coordinate/diff/spherical_coslat_differential.hpp: make_spherical_coslat_differential", "include/boost/astronomy/coordinate/sky_point.hpp"]}
{"id": "C94", "title": "Printed coordinates can be told apart", "statement": "When no quantity is printed with a comma, two representations (or two two-angle coordinates) print the same text exactly when they are of the same class and each of their quantities prints the same.", "quantifier": "for all representations and two-angle coordinates and every way of printing a quantity without commas", "why_tests_cant": "injectivity over all values; tests print single objects", "anchors": ["include/boost/astronomy/coordinate/io/io.hpp: operator<<", "include/boost/astronomy/coordinate/coord_sys/horizon_coord.hpp: operator<<"]}
{"id": "C95", "title": "Printed decimal hours", "statement": "The text of a decimal hour gives its hours and minutes and its seconds to half a millionth, so that in double arithmetic the printed time is the stored one up to that and 2^-53 hours; two decimal hours with the same text differ by at most a millionth of a second. Seconds from 59.9999995 on print as 60.000000, which happens for doubles just below a full minute. A decimal hour made of parts always prints as 0h 0m 0.000000s.", "quantifier": "for all decimal hours, doubles and tie rules", "why_tests_cant": "universal over doubles; the 60 shows only in windows half a millionth of a second wide", "anchors": ["include/boost/astronomy/time/parser.hpp: operator<<, decimal_hour"]}
{"id": "C96", "title": "Which decimal texts are floating point numbers", "statement": "A card value or ASCII table cell is read as a double (or float) exactly when it is an optional sign followed by digits with or without a point and an optional decimal exponent, or a name of infinity or NaN; the result is the closest double with ties to even, and a number that would round to infinity is refused. Whole numbers up to 2^53 (2^24) are read exactly. Text that begins like a number and contains any other byte is refused with invalid_cast, in particular the FITS notation 1.5D3.", "quantifier": "for all byte strings and all bit patterns of double and float", "why_tests_cant": "the grammar and the rounding are about all texts; tests try a few numbers", "anchors": ["include/boost/astronomy/io/default_card_policy.hpp: serialize_to_fits_format, parse_to", "include/boost/astronomy/io/string_conversion_utility.hpp: ascii_converter"]}
{"id": "C97", "title": "How floating point numbers are written", "statement": "On a card and in an ASCII table cell a double or float is written as the closest decimal of six significant digits (ties to even digit), in plain notation without superfluous zeros from 0.0001 up to 999999 and with an exponent of two or three digits otherwise, infinities and NaNs as inf and nan with their sign. The text has at most 13 bytes, so a floating point card is accepted exactly when the keyword has at most 8 and the comment at most 48 bytes. The text can be read as an integer exactly when the six-digit decimal is a whole number below a million.", "quantifier": "for all bit patterns of double and float, all keywords and comments", "why_tests_cant": "2^64 bit patterns; choice of notation and rounding depend on the value", "anchors": ["include/boost/astronomy/io/default_card_policy.hpp: serialize_to_fits_format, parse_to", "include/boost/astronomy/io/string_conversion_utility.hpp: ascii_converter"]}
{"id": "C98", "title": "What becomes of floating point numbers on cards and in ASCII tables", "statement": "A double or float written to a fresh card (or an ASCII cell) and read back becomes the closest number to its six-digit decimal. It stays finite, keeps its sign and changes by at most one part in 100000. A normal number survives exactly when it is the closest number to some decimal of six digits; numbers that are such decimals, and infinities, always survive; a NaN stays a NaN but loses its bits; for normal numbers a second round trip changes nothing. A commented card with a slash in its keyword cannot be read back as a floating point number.", "quantifier": "for all bit patterns, keywords, comments and fresh cards", "why_tests_cant": "exact characterisation of the loss of precision over all doubles; a Julian date loses its fraction, which round values in tests do not show", "anchors": ["include/boost/astronomy/io/default_card_policy.hpp: serialize_to_fits_format, parse_to", "include/boost/astronomy/io/string_conversion_utility.hpp: ascii_converter"]}
{"id": "C99", "title": "Complex floating point cards cannot be read back", "statement": "A complex number of doubles or floats is accepted by a card with a keyword of at most 8 and a comment of at most 28 bytes, and reading it back as the same type always throws invalid_cast, because the padding of the imaginary part begins its text with a blank.", "quantifier": "for all bit patterns of real and imaginary part, keywords, comments and fresh cards", "why_tests_cant": "negative fact about all values: no pair of numbers survives", "anchors": ["include/boost/astronomy/io/default_card_policy.hpp: serialize_to_fits_format, parse_to", "include/boost/astronomy/io/string_conversion_utility.hpp: ascii_converter"]}
{"id": "C100", "title": "Mean and deviation of integer images in double arithmetic", "statement": "For images of 8, 16 and 32 bit integers of at most 2^46, 2^38 and 2^22 pixels mean() is the exact mean rounded once to the closest double. It therefore lies between the smallest and the largest pixel, does not depend on the order of the pixels and is exact for constant images, and std_dev() of two or more pixels is zero exactly when all pixels are equal. Beyond the bound this fails: with 2^23 pixels of 32 bits the mean can be wrong by 1/2 in one order and right in another.", "quantifier": "for all images of integers up to the size, all orders", "why_tests_cant": "rounding in running sums depends on all pixels and their order; the failure needs millions of pixels", "anchors": ["include/boost/astronomy/io/image.hpp: max, min, mean, std_dev", "include/boost/astronomy/io/bitpix.hpp: bitpix_type"]}
{"id": "C101", "title": "Rounding errors of mean and deviation", "statement": "For n (at most 2^50) pixels that are numbers mean() differs from the exact mean by at most (n+1) 2^-52 times the mean absolute value plus 2^-1075, and std_dev() is the double closest to the root of a number that differs from the sample variance V by at most (n+4) 2^-52 (V + 2e^2) + 2e^2 + 2^-1072, e being the error of the mean. The mean of ten pixels of 0.1 is nevertheless below every pixel and their deviation is not zero, and the mean depends on the order of the pixels.", "quantifier": "for all images of any pixel type with finite pixels (64 bit pixels up to 2^480 for the deviation, sum of absolute values up to 2^1022 for the mean)", "why_tests_cant": "error bounds over all floating point inputs", "anchors": ["include/boost/astronomy/io/image.hpp: max, min, mean, std_dev", "include/boost/astronomy/io/bitpix.hpp: bitpix_type"]}
{"id": "C102", "title": "NaN, infinity and overflow in image statistics", "statement": "A NaN pixel makes mean and std_dev NaN. An infinite pixel makes the mean that infinity or NaN (NaN if both infinities occur) and std_dev NaN. When all pixels are numbers the mean is not NaN and std_dev of two or more is a non-negative number or positive infinity, never NaN; std_dev of one pixel is NaN, and both are 0 without pixels. Overflow is possible: the mean of twice the largest double is infinite, the deviation of 2^600 and -2^600 is infinite and that of 2^-600 and -2^-600 is zero.", "quantifier": "for all images of all pixel types", "why_tests_cant": "special values and overflow are combinations that example images do not contain", "anchors": ["include/boost/astronomy/io/image.hpp: max, min, mean, std_dev", "include/boost/astronomy/io/bitpix.hpp: bitpix_type"]}
{"id": "C103", "title": "Largest and smallest pixel with NaN", "statement": "max() (min()) of an image whose first pixel is not a NaN returns the bits of the first of its largest (smallest) pixels, passing over NaNs; if the first pixel is a NaN that NaN is the result, whatever follows; for an empty image it is undefined.", "quantifier": "for all images of all pixel types", "why_tests_cant": "depends on the position of NaNs among all pixels", "anchors": ["include/boost/astronomy/io/image.hpp: max, min, mean, std_dev", "include/boost/astronomy/io/bitpix.hpp: bitpix_type"]}
{"id": "C104", "title": "Dot product in double arithmetic", "statement": "The dot product of Cartesian vectors of doubles (one unit) gives the same double in both orders of its arguments, also with infinities and NaNs. For finite coordinates it differs from the exact product by at most 2^-51 times the sum of the absolute products plus 2^-1073; for integers whose products sum up to at most 2^53 it is exact. It can lose everything when terms cancel: (-2^54, 2^54, 1) and (1, 1, 1) give 0 instead of 1, and with the coordinates in another order 1.", "quantifier": "for all pairs of vectors of doubles (sum of absolute products up to 2^1022 for the error bound)", "why_tests_cant": "error bounds over all floating point inputs", "anchors": ["include/boost/astronomy/coordinate/arithmetic.hpp: dot, cross, magnitude, unit_vector, sum, mean", "include/boost/astronomy/coordinate/rep/cartesian_representation.hpp: operator+"]}
{"id": "C105", "title": "Cross product in double arithmetic", "statement": "Exchanging the arguments of cross changes the sign of every component of the result and nothing else, also with rounding, overflow, infinities and NaNs. The cross product of a vector with itself is exactly zero unless a product overflows, when it is NaN. Every component differs from the exact one by at most 2^-51 times the sum of its absolute products plus 2^-1073, and is exact for integers with products that sum up to at most 2^53. The result need not be perpendicular to the arguments: the double dot product with them can be nonzero.", "quantifier": "for all pairs of vectors of doubles (products up to 2^1022 for the error bound)", "why_tests_cant": "error bounds and exact symmetry over all floating point inputs", "anchors": ["include/boost/astronomy/coordinate/arithmetic.hpp: dot, cross, magnitude, unit_vector, sum, mean", "include/boost/astronomy/coordinate/rep/cartesian_representation.hpp: operator+"]}
{"id": "C106", "title": "Magnitude of a vector in double arithmetic", "statement": "When the sum of squares is between 2^-960 and 2^1000 magnitude() differs from the length by at most 2^-51 of it and is not smaller than the absolute value of any coordinate. It is exact for integers with an integer length up to 2^26. Outside it breaks down: the magnitude is zero exactly when every coordinate has a square of at most 2^-1075, the zero vector or not, and it is infinite as soon as a coordinate reaches 2^512, although the length is an ordinary double.", "quantifier": "for all vectors of finite doubles", "why_tests_cant": "needs the rounding of every operation and the exact borders of underflow and overflow", "anchors": ["include/boost/astronomy/coordinate/arithmetic.hpp: dot, cross, magnitude, unit_vector, sum, mean", "include/boost/astronomy/coordinate/rep/cartesian_representation.hpp: operator+"]}
{"id": "C107", "title": "Unit vector in double arithmetic", "statement": "When the sum of squares is between 2^-960 and 2^1000 each coordinate of unit_vector() differs from that of the exact unit vector by at most 2^-50 of it plus 2^-1075, no coordinate is larger than 1 in absolute value, so acos and asin of it in the conversion to angles are defined, and the length of the result has a square within 2^-48 of 1. If a coordinate reaches 2^512 the unit vector is the zero vector, and when the magnitude underflows to zero its coordinates are infinities and NaNs.", "quantifier": "for all vectors of finite doubles", "why_tests_cant": "needs the rounding of every operation for all inputs; that |z/r| stays below 1 is a property of the rounding of roots and quotients", "anchors": ["include/boost/astronomy/coordinate/arithmetic.hpp: dot, cross, magnitude, unit_vector, sum, mean", "include/boost/astronomy/coordinate/rep/cartesian_representation.hpp: operator+"]}
{"id": "C108", "title": "Sum and mean of vectors in double arithmetic", "statement": "Each coordinate of sum() and of operator + is the exact sum rounded once to the closest double; both orders agree; adding zero changes nothing and adding the opposite vector gives zero. Addition is not associative. For coordinates up to 2^1022 mean() gives coordinates between those of its arguments, which differ from the exact mean by at most 2^-53 of it plus 2^-1075, and the mean of a vector with itself is the vector; beyond, the mean of a vector with itself can be infinite.", "quantifier": "for all pairs of vectors of doubles", "why_tests_cant": "rounding over all floating point inputs", "anchors": ["include/boost/astronomy/coordinate/arithmetic.hpp: dot, cross, magnitude, unit_vector, sum, mean", "include/boost/astronomy/coordinate/rep/cartesian_representation.hpp: operator+"]}
{"id": "C109", "title": "Copies of tables share the views, not the data", "statement": "In programs that never copy or move a table with a viewed column, tables behave as independent values. A copy of a table with a viewed column has its own matrix, but its view reads and writes the matrix of the original: a value written through the copy lands in the original, the copy own data stay as they were; after the original is destroyed only the rows the view remembers can be read, everything else through this view is undefined behaviour. Whenever a table with a viewed column is copied some continuation of the program notices.", "quantifier": "for all programs (lists of creations, copies, assignments, destructions, reads, writes, loops, replacements of data) on all tables and for all cell types", "why_tests_cant": "a statement on all programs; dangling pointers are undefined behaviour, which no test can establish", "anchors": ["include/boost/astronomy/io/column_data.hpp: column_data, column_view", "include/boost/astronomy/io/ascii_table.hpp: get_column, set_data", "include/boost/astronomy/io/binary_table.hpp: get_column, set_data", "include/boost/astronomy/io/table_extension.hpp"]}
{"id": "C110", "title": "Several views of one column", "statement": "A view that has read or written a row, or is a copy of one that had, returns the same value for this row until it is written through this very view, whatever is written through other views. All views write to the same matrix, which holds the text of the last write, and a view that does not yet know a row returns that text decoded. A copy of a view starts with everything the view knows.", "quantifier": "for all sequences of reads, writes and copies of views, all rows and values", "why_tests_cant": "for all interleavings of operations on any number of views", "anchors": ["include/boost/astronomy/io/column_data.hpp: column_data, column_view"]}
{"id": "C111", "title": "set_value with a C string", "statement": "set_value with a C string of at most 20 bytes leaves keyword and the string right-justified in 20 columns, without \"= \" and quotes, 28 bytes in all; the value of the card is then true, for whatever string, and asking for a string throws bad_get. A longer C string is refused with length_error and the card is as before, while a std::string of up to 68 bytes is accepted. The two overloads never leave the same card, except that both leave it alone beyond 68 bytes.", "quantifier": "for all cards of 80 bytes and all strings", "why_tests_cant": "for all strings; the value comes from an implicit conversion of the pointer", "anchors": ["include/boost/astronomy/io/card.hpp: set_value", "include/boost/astronomy/io/default_card_policy.hpp: serialize"]}
{"id": "C112", "title": "Accuracy of coordinate conversions in double arithmetic", "statement": "If sine and cosine are accurate to 2^-53, every coordinate of the direction vector that a conversion (hour angle to horizon, hour angle to right ascension, ecliptic and galactic in both directions) computes in doubles is within 2^-49 of the exact one. The latitude is within 2^-23 rad (0.025 arc seconds) of the exact one wherever the computation gives one, and within 2^-47 rad up to a latitude of 1 rad. What a conversion leaves alone it leaves alone exactly: the sine of the declination between hour angle and right ascension, the coordinate toward the equinox between equator and ecliptic.", "quantifier": "for all angles that are doubles, all six matrices and every library with accurate sine and cosine", "why_tests_cant": "error bounds over all floating point inputs and libraries", "anchors": ["include/boost/astronomy/coordinate/utility/utility.hpp: column_vector, ha_dec_horizon, ha_dec_ra_dec, ecliptic_to_ra_dec, ra_dec_to_ecliptic, galactic_to_ra_dec, ra_dec_to_galactic, extract_coordinates"]}
{"id": "C113", "title": "Where a conversion gives no latitude", "statement": "A star in the zenith of an observer at latitude 8 degrees (the closest double in radians) gets the altitude NaN, although sines and cosines are as good as they can be: the third coordinate is rounded to a number above 1 and asin is not defined. This happens only within 2^-23 rad of a pole, and never in conversions to or from galactic coordinates.", "quantifier": "for every library with sine and cosine rounded to the closest double; for all angles that are doubles", "why_tests_cant": "one has to find the inputs, and show that there are none elsewhere", "anchors": ["include/boost/astronomy/coordinate/utility/utility.hpp: column_vector, ha_dec_horizon, ha_dec_ra_dec, ecliptic_to_ra_dec, ra_dec_to_ecliptic, galactic_to_ra_dec, ra_dec_to_galactic, extract_coordinates"]}
{"id": "C114", "title": "Latitudes near the poles", "statement": "A latitude computed from a matrix product in doubles is exactly a pole or at least 2^-26 rad (3 milliarcseconds) away from it. No direction gets a galactic latitude, or from galactic coordinates a declination, within 0.000077 rad (16 arc seconds) of a pole, already in exact arithmetic, because the third rows of these matrices are shorter than 1.", "quantifier": "for all matrices and vectors of doubles; for all real angles", "why_tests_cant": "no input reaches the missing values", "anchors": ["include/boost/astronomy/coordinate/utility/utility.hpp: column_vector, ha_dec_horizon, ha_dec_ra_dec, ecliptic_to_ra_dec, ra_dec_to_ecliptic, galactic_to_ra_dec, ra_dec_to_galactic, extract_coordinates"]}
{"id": "C115", "title": "Accuracy of longitudes after a conversion in double arithmetic", "statement": "If sine and cosine are accurate to 2^-53, every conversion in doubles gives a longitude (azimuth, right ascension), and the displacement on the sky this longitude stands for, its error times the cosine of the latitude, is at most 2^-46 rad, up to full turns.", "quantifier": "for all angles that are doubles, all six matrices and every library with accurate sine and cosine", "why_tests_cant": "error bounds over all floating point inputs, with no exception near the poles and at the branch cut", "anchors": ["include/boost/astronomy/coordinate/utility/utility.hpp: column_vector, ha_dec_horizon, ha_dec_ra_dec, ecliptic_to_ra_dec, ra_dec_to_ecliptic, galactic_to_ra_dec, ra_dec_to_galactic, extract_coordinates"]}
{"id": "C116", "title": "Accuracy of the obliquity of the ecliptic", "statement": "For every day boost::gregorian can hold, 1 January 1400 to 31 December 9999, the obliquity the library computes in double arithmetic is within 2^-47 degrees of the polynomial, and within 2^-51 rad after the conversion to radians, whatever long double is, as long as it is no less precise than double.", "quantifier": "for all Julian day numbers in the range of boost::gregorian and all long double formats at least as precise as double", "why_tests_cant": "error bound over more than three million days and over all floating point formats of the platform", "anchors": ["include/boost/astronomy/coordinate/utility/utility.hpp: obliquity_of_ecliptic"]}
{"id": "C117", "title": "Accuracy of Cartesian coordinates computed from angles", "statement": "If sine and cosine are accurate to 2^-53, the Cartesian coordinates of a spherical or equatorial representation of doubles are within 2^-50 times the distance of the exact ones; on the polar axis (spherical) and at the origin of both angles (equatorial) they are exact when sine and cosine are the closest doubles.", "quantifier": "for all angles that are doubles, all distances between 2^-900 and 2^900 in size and every library with accurate sine and cosine", "why_tests_cant": "error bound over all floating point inputs and all libraries", "anchors": ["include/boost/astronomy/coordinate/rep/cartesian_representation.hpp: constructor from point, make_cartesian_representation", "include/boost/astronomy/coordinate/rep/spherical_representation.hpp: constructor from point, make_spherical_representation", "include/boost/astronomy/coordinate/rep/spherical_equatorial_representation.hpp: constructor from point, make_spherical_equatorial_representation"]}
{"id": "C118", "title": "Cartesian coordinates to angles and back in double arithmetic", "statement": "A Cartesian vector converted to angles and back keeps about 24 bits of its first two coordinates (2^-24 of the length with the constructor from a point, 2^-22 with the make functions, which convert twice) and nearly all of the third, and nearly all of every coordinate when it is not near the polar axis. Next to the axis the loss is real: vectors with third coordinate 1 and the others up to 2^-27 get the polar angle of the axis and come back as (0, 0, 1), and a spherical point with polar angle up to 2^-28 given to the constructor loses that angle, because the constructor goes through Cartesian coordinates even then.", "quantifier": "for all vectors of doubles with length in the middle of the range, both angular systems and every library of stated accuracy", "why_tests_cant": "error bound over all floating point inputs, and loss for a whole set of inputs that is too thin to be met by random tests", "anchors": ["include/boost/astronomy/coordinate/rep/cartesian_representation.hpp: constructor from point, make_cartesian_representation", "include/boost/astronomy/coordinate/rep/spherical_representation.hpp: constructor from point, make_spherical_representation", "include/boost/astronomy/coordinate/rep/spherical_equatorial_representation.hpp: constructor from point, make_spherical_equatorial_representation"]}
{"id": "C119", "title": "Angular separation in double arithmetic", "statement": "The separation of two frames of doubles is within 2^-23 rad (0.02 arc seconds) of the exact angle, within 2^-46 for angles between 33 and 147 degrees, and the same in both orders to the last bit. For directions that nearly coincide (or are nearly opposite) it can be NaN instead: a point 8 degrees off the pole has separation NaN from itself, even with the best sine and cosine. The result is never between 2^-52 and 2^-27 rad: there is no way to measure smaller separations. With a distance of 0 it is NaN.", "quantifier": "for all angles that are doubles, all distances between 2^-400 and 2^400 in size, both angular systems and every library of stated accuracy", "why_tests_cant": "error bound over all floating point inputs and all libraries; NaN occurs on a thin set only", "anchors": ["include/boost/astronomy/coordinate/ref_frame/base_frame.hpp: get_angular_separation", "include/boost/astronomy/coordinate/arithmetic.hpp: dot, magnitude"]}
{"id": "C120", "title": "Positional angle in double arithmetic", "statement": "The positional angle of two points in frames of doubles exists, and its error times the sine of the angular distance of the points is at most 2^-45, up to full turns; on the same meridian it is 0 or pi up to 2^-52 and full turns, if sine and cosine are the closest doubles.", "quantifier": "for all latitudes that are doubles, all longitudes that are doubles of size up to 8, and every library of stated accuracy", "why_tests_cant": "error bound over all floating point inputs and all libraries", "anchors": ["include/boost/astronomy/coordinate/sky_point.hpp: positional_angle"]}
{"id": "C121", "title": "Chains of coordinate conversions in double arithmetic", "statement": "Converting a direction through any number of the matrices of an angle (horizon, hour angle, ecliptic, each followed by reading off the angles again) moves it by at most 2^-23 rad (0.025 arc seconds) per conversion from where exact rotations would take it, unless the latitude is NaN, which then stays NaN for ever. If no direction on the way is more than 53 degrees from the equator there is no NaN, and the error is at most 2^-45 rad per conversion. In particular a conversion and its inverse give the direction back within 2^-22, or 2^-44 away from the poles.", "quantifier": "for all chains of conversions of any length (up to 2^32 steps for the finer bound), all angles that are doubles and every library of stated accuracy", "why_tests_cant": "error bound over all floating point inputs, all libraries and chains of unbounded length", "anchors": ["include/boost/astronomy/coordinate/utility/utility.hpp: extract_coordinates, matrix products of conversions"]}
{"id": "C122", "title": "Median of the pixels themselves", "statement": "The median of an image is defined exactly if there are pixels and no NaN is among them together with two different values (always for integer pixels). It is then a pixel with at most half of the pixels below it and more than half not above it (for an even number of pixels the upper of the two in the middle, never their mean). Neither the order of the pixels nor the way std::nth_element works changes its value. If all pixels are numbers it has the value of C22.", "quantifier": "for all images of all five pixel types and every std::nth_element that does what the standard says", "why_tests_cant": "all images and all implementations of nth_element, undefined behaviour with NaNs", "anchors": ["include/boost/astronomy/io/image.hpp: median"]}
{"id": "C123", "title": "Arithmetic on angular representations in double", "statement": "Sum, mean and cross product of two angular (or mixed) representations of doubles stand for a position within 2^-23 of the exact one compared with its length (2^-45 away from the polar axis), plus 2^-47 or less of what the lengths of the operands allow; the dot product is accurate to 2^-47 of the product of the lengths; operator+, which converts the result twice, is within 2^-22. If the operands cancel, the distance of the result is 0 and its second coordinate is not set: it is whatever the memory held.", "quantifier": "for all positions with lengths in [2^-400, 2^400] (products: [2^-200, 2^200]) that do not cancel below 2^-43, and all sine, cosine, acos, asin, atan2 with an error up to 2^-52 or so as stated", "why_tests_cant": "accumulated rounding over all inputs and all maths libraries; uninitialised memory", "anchors": ["include/boost/astronomy/coordinate/arithmetic.hpp: sum, mean, cross, dot", "include/boost/astronomy/coordinate/rep/spherical_representation.hpp: operator+"]}
{"id": "C124", "title": "Moving tables and changing them behind their views", "statement": "A program that creates, copies, moves, assigns, reads, writes, loops over and destroys tables, and changes matrices through get_data(), behaves as if every table were a value of its own, as long as no table with a viewed column is copied or moved. If a table with a viewed column is moved, the new object has the whole matrix, but a loop over the column finds no rows, only rows read before can be read, and writing is undefined behaviour. After a change through get_data() the matrix is new at once while the view keeps returning the values it remembers.", "quantifier": "for all programs over any number of tables, all columns, element types, rows and matrices", "why_tests_cant": "aliasing over unbounded object graphs; what a dangling or stale pointer shows depends on luck in a test", "anchors": ["include/boost/astronomy/io/table_extension.hpp: get_data, cached_columns", "include/boost/astronomy/io/column_data.hpp: column_view"]}
{"id": "C125", "title": "Open, edit, save, open again", "statement": "convert_to gives the table in the file object itself: bad_get for an HDU of another kind, out_of_range for an index that does not exist, and no HDU but the one addressed is touched. While a program works with the tables of an open file every table behaves as if it were alone and its columns plain arrays. When the file is then written and the new file opened, it has the same HDUs, headers, columns and images, and every typed cell holds the value last written to it or else the value it had in the old file, provided that all HDUs carry data that fit their headers and that the values written can be stored without loss and fit their columns.", "quantifier": "for all files, all programs of typed reads, writes, assignments and loops over any number of tables, all values that fit", "why_tests_cant": "composition of parsing, cached views, formatting and parsing again over unbounded files and programs", "anchors": ["include/boost/astronomy/io/fits.hpp: open, convert_to", "include/boost/astronomy/io/fits_reader.hpp: operator[], write_to", "include/boost/astronomy/io/column_data.hpp"]}
{"id": "C126", "title": "Angles in degrees, in double arithmetic", "statement": "A number of angular units is stored in radians up to the error of the conversion factor and one rounding, the order of angles is kept, radians are stored unchanged, and reading in the same unit gives the number up to a fraction of 2^-51, but not always exactly. If the factor of degrees is 6.28318530718/360, every angle given in degrees is stored too large by a fraction between 2^-44 and 2^-43: a point given by angles of at most 360 degrees is placed within 2^-39 of its distance, and half a turn misses the axis by at least 2e-13.", "quantifier": "for all doubles within wide bounds, all factors, all sine and cosine functions of the stated accuracy; the degree theorems for the one factor 6.28318530718/360, which is an assumption about boost::units", "why_tests_cant": "error bounds over all angles and all library implementations", "anchors": ["include/boost/astronomy/coordinate/rep/spherical_representation.hpp: set_lat, get_lat, set_lon, get_lon", "include/boost/astronomy/coordinate/rep/spherical_equatorial_representation.hpp"]}
{"id": "C127", "title": "Vectors whose quantities have different units, in double arithmetic", "statement": "Change of units, sum, mean, dot product, cross product and magnitude of Cartesian vectors whose three quantities have different units, and conversion to angular coordinates and back, give the physical result up to a small multiple of the error of the conversion factors plus a few roundings. With one unit throughout nothing is converted.", "quantifier": "for all unit systems, all factors accurate to a fraction of at most 1/16, all vectors that are zero or of ordinary size in the units concerned", "why_tests_cant": "error bounds over all units and doubles", "anchors": ["include/boost/astronomy/coordinate/arithmetic.hpp: sum, mean, dot, cross, magnitude", "include/boost/astronomy/coordinate/rep/cartesian_representation.hpp"]}
{"id": "C128", "title": "Differentials in double arithmetic", "statement": "A differential times a number stands for the product within a fraction of 2^-23, or 2^-45 away from the polar axis, although the product goes through Cartesian coordinates; its magnitude is accurate to 2^-49, and its unit vector, in any system, is within 2^-23 (2^-45) of the direction. Times one is not the same differential: polar angles up to 2^-28 become that of the axis. A coslat differential made Cartesian has its polar angle back with an error that grows with the inverse square of the cosine.", "quantifier": "for all systems, all differentials and numbers of ordinary size, all library functions of the stated accuracy", "why_tests_cant": "error bounds over all doubles and all library implementations", "anchors": ["include/boost/astronomy/coordinate/diff/base_differential.hpp: unit_vector, magnitude", "include/boost/astronomy/coordinate/diff/cartesian_differential.hpp: operator*", "include/boost/astronomy/coordinate/diff/spherical_differential.hpp: operator*", "include/boost/astronomy/coordinate/diff/spherical_coslat_differential.hpp: make_cartesian_differential"]}
{"id": "C129", "title": "Setters and getters of frames in double arithmetic", "statement": "After any sequence of setter calls an angle of a frame is read as the value given last up to a fraction of 2^-51 whatever its unit (exactly in radians), distances and radial velocities exactly, and what was not set as before. An angle that is read and written back n times moves by a fraction of at most n 2^-50, always the same way, and nothing else changes; it may move more than once, as 9 degrees does with the assumed factor of degrees. get_proper_motion does not agree with the getters: after x degrees it returns a number between x/58 and x/57, for either angle.", "quantifier": "for all frames, all sequences of setter calls of any length, all factors from 2^-400 to 2^400, all angles from 2^-500 to 2^500 and zero, all n up to 2^49", "why_tests_cant": "sequences of calls of any length and error bounds over all doubles and units", "anchors": ["include/boost/astronomy/coordinate/ref_frame/base_frame.hpp: get_proper_motion", "include/boost/astronomy/coordinate/ref_frame/base_equatorial_frame.hpp: setters and getters", "include/boost/astronomy/coordinate/rep/spherical_representation.hpp: get_lat, set_lat", "include/boost/astronomy/coordinate/diff/spherical_coslat_differential.hpp: get_dlat, set_dlat"]}
{"id": "C130", "title": "Coslat differentials in double arithmetic", "statement": "A coslat differential made of another differential stands for its azimuth, the product of its polar angle and the cosine of the azimuth, and its length, within a fraction of 2^-22, or 2^-44 away from the polar axis; so does the sum of a coslat differential and another one, where however the stored product of the first operand is read as a polar angle: adding next to nothing can turn a differential from the equator to the pole. A product keeps the stored numbers within 2^-23 (2^-45).", "quantifier": "for all differentials of ordinary size in all systems, all library functions of the stated accuracy", "why_tests_cant": "error bounds over all doubles and all library implementations", "anchors": ["include/boost/astronomy/coordinate/diff/spherical_coslat_differential.hpp: make_spherical_coslat_differential, operator+, operator*"]}
{"id": "C131", "title": "Coordinate conversions with angles in degrees, in double arithmetic", "statement": "A direction and any number of conversions (horizon, hour angle, ecliptic) given by angles that are stored within e radians of what they should be lead to a direction within 2^-23 rad per conversion plus e per angle of the exact one, unless the latitude is NaN; if no exact direction on the way is more than 48 degrees from the equator, there is no NaN and a conversion costs 2^-45 rad only. If the factor of degrees is 6.28318530718/360, e is 2^-40 rad for angles in degrees of up to a full turn. With the obliquity the code computes for a date, the conversion of ecliptic coordinates is within 2^-45 + 2^-49 rad (2^-23 + 2^-49 near the poles) of the one with the exact obliquity.", "quantifier": "for all chains of conversions of any length (up to 2^32 steps for the finer bound), all units, all angles, all dates of boost::gregorian, every library of stated accuracy and every long double at least as precise as double; the degree theorems for the one factor 6.28318530718/360, which is an assumption about boost::units", "why_tests_cant": "error bound over all floating point inputs, all libraries and chains of unbounded length", "anchors": ["include/boost/astronomy/coordinate/utility/utility.hpp: column_vector, ha_dec_horizon, ha_dec_ra_dec, ecliptic_to_ra_dec, ra_dec_to_ecliptic, extract_coordinates, obliquity_of_ecliptic"]}
{"id": "C132", "title": "Opening a FITS file and saving it keeps its bytes", "statement": "Saving a file that was opened puts every HDU at its old place: the cards of all headers, the pixels of all images and the data of all binary tables are the same bytes at the same positions, the cells of ASCII tables are right-justified in their columns, and all other bytes are blanks up to the end of the last block. The saved file equals the opened one exactly when that one already has this form. Opening the saved file and saving it again gives the same file.", "quantifier": "for all file contents that consist of HDUs with data that fits their headers (no 8 bit images, which lose their pixels), any number and mixture of HDUs, files below 2^63 - 5760 bytes", "why_tests_cant": "Which bytes change depends on the kinds, sizes and fillings of all HDUs together; a test compares single files.", "anchors": ["include/boost/astronomy/io/fits_reader.hpp: read_entire_hdus, write_to", "include/boost/astronomy/io/fits_stream.hpp: find_unit_end", "include/boost/astronomy/io/image.hpp: write_image", "include/boost/astronomy/io/binary_table.hpp: write_to", "include/boost/astronomy/io/ascii_table.hpp: write_to"]}
{"id": "C133", "title": "Angular separation under coordinate conversions", "statement": "Converting two places by any sequence of the matrices of angles leaves the angle between them as it is. The separation of frames with equatorial data is unchanged by it. The separation of the frame classes of the library (latitude and longitude) is not: between hour angle and right ascension it survives exactly when the latitudes agree or cos(2 st - l - l') = cos(l + l'), and two stars that are 0 apart become as far apart as their latitudes. In doubles the separation computed after N conversions is within (4 N + 1) 2^-23 rad of the exact one before them, or NaN where the points nearly coincide or are nearly opposite; (4 N + 1) 2^-45 rad away from the poles.", "quantifier": "for all places, all angles, all sequences of conversions; in doubles all doubles as angles, distances between 2^-400 and 2^400, sines and cosines within 2^-53, inverse functions within 2^-52", "why_tests_cant": "Statements about all pairs of points and all sequences of conversions; rounding errors of a chain cannot be bounded by samples.", "anchors": ["include/boost/astronomy/coordinate/ref_frame/base_frame.hpp: get_angular_separation", "include/boost/astronomy/coordinate/utility/utility.hpp: column_vector, extract_coordinates, ha_dec_ra_dec", "include/boost/astronomy/coordinate/rep/arithmetic.hpp: dot, magnitude"]}
{"id": "C134", "title": "What reading does to a file of any bytes", "statement": "Whatever the bytes of a file are, read_entire_hdus ends in exactly one way: everything is complete HDUs and these are the result; or behind complete HDUs comes a header without END (never returns), a header that is refused (its exception), announced data of 2^63 bytes or more (length_error), an HDU that is refused with the announced data completed by blanks (its exception), or an HDU that is accepted although the file ends inside its END card or data (never returns). read_only_headers likewise; in addition it never returns if the announced lengths lead it back to a place where it was before. A call that has not ended after reading length/80 + 1 cards of one header or length/2880 + 2 headers never ends.", "quantifier": "for all byte sequences shorter than 2^63 - 5760 and all conversions of floating point texts", "why_tests_cant": "All byte sequences; and no test can tell a call that never returns from a slow one.", "anchors": ["include/boost/astronomy/io/fits_reader.hpp: read_entire_hdus, read_only_headers, extract_header, extract_data_buffer", "include/boost/astronomy/io/header.hpp: read_header", "include/boost/astronomy/io/fits_stream.hpp: read, at_end, set_unit_end"]}
{"id": "C135", "title": "A star over the horizon, from date, place and catalogue position", "statement": "A program that asks LST for the local sidereal time, multiplies the hours by 15 degrees, and converts right ascension and declination with ha_dec_ra_dec and ha_dec_horizon, gets azimuth and altitude that point to within 2^-22 + 2^-31 rad of the direction given by the formulas of the textbook (astronomical triangle with the exact polynomial of sidereal time), or NaN as altitude; with declination and altitude below about 45 degrees it gets numbers within 2^-31 rad (a ten thousandth of a second of arc). The altitude is positive exactly if the star is up, unless the sine of its altitude is within 2^-31 (2^-21 near the poles) of zero.", "quantifier": "for all dates from 1400 to 9999 and times of day, all longitudes up to 720 degrees east or west, all latitudes, right ascensions and declinations up to 360 degrees, all roundings to nearest, and all accurate trigonometric functions", "why_tests_cant": "Rounding errors of five library calls add up and are enlarged near zenith and pole; date, place and position vary continuously, and no test compares with the exact polynomial.", "anchors": ["include/boost/astronomy/time/time_conversions.hpp: GST, LST", "include/boost/astronomy/coordinate/utility/utility.hpp: column_vector, ha_dec_ra_dec, ha_dec_horizon, extract_coordinates"]}
{"id": "C136", "title": "Sidereal time is a clock that gains four minutes a day", "statement": "Between two moments after 1 October 1582 GST advances by 1.002737909 hours for every hour that passes, up to whole days, 2e-9 hours and 1.3e-7 hours for every day between them; so 23 h 56 m 4 s later it shows the same up to a tenth of a second. Up to 1 October 1582 the same holds with days counted in the Julian calendar. LST at one place advances like GST up to 2^-45 hours. From 1 to 2 October 1582 the clock goes back by 35 m 29 s.", "quantifier": "for all pairs of moments from 1400 to 9999, all longitudes up to 720 degrees in both directions, and all roundings to nearest", "why_tests_cant": "The statement relates two calls at arbitrary distance; day numbers, the reduction to one day and rounding all enter, and the unit tests compare single values.", "anchors": ["include/boost/astronomy/time/time_conversions.hpp: julian_date, GST, LST"]}
{"id": "C137", "title": "Exception specifications of the FITS calls", "statement": "For every call of the FITS part the set of errors that can come out of it is exactly this: card(text): invalid_card, out_of_range; create_card: invalid_card if the value prints with at most 20 characters, otherwise always length_error; create_commentary_card: invalid_card, length_error; set_value: nothing, or always length_error; keyword(): nothing; value<T>() and value_of<T>(): out_of_range, bad_get and invalid_cast (undefined behaviour instead of invalid_cast for strings), out_of_range of value_of exactly for missing keywords; naxis(n): undefined behaviour only; get_column: column_not_found_exception, bad_get; reading and writing cells: in addition undefined behaviour and, by type, invalid_cast or bad_lexical_cast; opening a file: everything except column_not_found_exception; fits[i], fits[name]: out_of_range. A handler for fits_exception stops exactly the five kinds the library throws itself; out_of_range, length_error, bad_get and bad_lexical_cast get past it when a file is opened. Which handlers stop which of the classes of fits_exception.hpp is the written table, invalid_card stopping invalid_key_length_exception and invalid_value_length_exception, which are never thrown.", "quantifier": "for all texts, values, cards, headers, tables and files, and all states programs can bring the objects into", "why_tests_cant": "That nothing else is ever thrown is a statement about all inputs and states; a test can only show that some input throws something.", "anchors": ["include/boost/astronomy/exception/fits_exception.hpp: fits_exception and derived classes", "include/boost/astronomy/io/card.hpp: card, create_card, create_commentary_card, value, set_value, keyword, value_with_comment", "include/boost/astronomy/io/header.hpp: value_of, naxis", "include/boost/astronomy/io/fits_reader.hpp: read_entire_hdus, read_only_headers, operator[]", "include/boost/astronomy/io/table_extension.hpp: get_column_metadata", "include/boost/astronomy/io/column_data.hpp: operator[], update_value"]}
{"id": "C138", "title": "Separation and position angle of places given in degrees, in double arithmetic", "statement": "For two places whose angles are given in degrees (up to 360 in size), with any distances of ordinary size, get_angular_separation in double arithmetic is within 2^-22 of the true angle between the directions, or is no number and then the places are within 2^-22 of being equal or opposite; if the angle is within 0.9 of a right angle, the result is a number within 2^-37 of it. positional_angle, multiplied by the sine of the distance of the places, is within 2^-35 of the true position angle, up to full turns. The loss against radians is real: from 0 to 90 degrees along the equator the result is more than 8e-14 too large.", "quantifier": "for all pairs of places, all distances between 2^-400 and 2^400, and all library functions sin, cos, acos, atan2 with the stated accuracy", "why_tests_cant": "The error depends on all four angles, on the rounding of every operation and on the mathematical library; a test compares a few places with a tolerance that nobody has justified.", "anchors": ["include/boost/astronomy/coordinate/rep/spherical_equatorial_representation.hpp: constructors", "include/boost/astronomy/coordinate/rep/spherical_representation.hpp: constructors", "include/boost/astronomy/coordinate/ref_frame/base_frame.hpp: get_angular_separation", "include/boost/astronomy/coordinate/sky_point.hpp: separation, positional_angle"]}
{"id": "C139", "title": "Column metadata, and that scale and unit never touch the cells", "statement": "After any sequence of setter calls on a column object every getter returns the value of the last call of its own setter, or what the constructor left; the default constructor leaves all numbers indeterminate and the other two set scale and zero to -1. The metadata of a table are what the cards say; without a TSCALn or TZEROn card the getter reads an indeterminate number. set_data keeps all metadata. Unit, scale, zero, display format, dimensions and comment have no influence on cells: for the same data and the same layout cards every typed read, write, assignment and loop gives the same, so numbers come back as stored and are never scaled.", "quantifier": "for all sequences of setter calls, all headers read from files, all data, and all programs working with columns of any element type", "why_tests_cant": "That something never has an influence is a statement about all pairs of headers and all programs; a test sees single tables. Reading an indeterminate number may well pass in a test.", "anchors": ["include/boost/astronomy/io/column.hpp: constructors, setters, getters", "include/boost/astronomy/io/ascii_table.hpp: populate_column_data, set_data", "include/boost/astronomy/io/binary_table.hpp: populate_column_data, set_data", "include/boost/astronomy/io/column_data.hpp: column_view"]}
{"id": "C140", "title": "Frames built from representations and differentials, in double arithmetic", "statement": "With conversion factors accurate to a fraction e, a frame made of a spherical representation has the frame's units and the same quantities up to 4e + 2^-51 for angles and e + 2^-52 for the distance (plus underflow), so the same position within 120e + 2^-45 of its distance; a coslat differential is stored with the same accuracy; in radians and equal units both are stored unchanged. An equatorial representation goes through Cartesian coordinates twice and keeps its position within 122e + 2^-21, away from the polar axis 122e + 2^-43. A spherical or equatorial differential is stored as the point with azimuth dlat, polar angle dlon cos(dlat) and length ddist, within 400e + 2^-23, away from the axis 400e + 2^-43; with zero ddist all of them give the same motion. The motion does not depend on the position.", "quantifier": "for all doubles of usual size, all units and conversion factors, all accurate mathematical libraries, all frames", "why_tests_cant": "Error bounds over all doubles and all units; a test checks single values against a tolerance somebody chose.", "anchors": ["include/boost/astronomy/coordinate/ref_frame/base_equatorial_frame.hpp: constructors", "include/boost/astronomy/coordinate/rep/spherical_representation.hpp: make_spherical_representation", "include/boost/astronomy/coordinate/diff/spherical_coslat_differential.hpp: make_spherical_coslat_differential, conversion constructor"]}
{"id": "C141", "title": "Sums and products of representations and differentials with different units, in double arithmetic", "statement": "With conversion factors accurate to a fraction e, the sum of an angular object and any other object, whatever their systems and units, has the units of the first and stands for the sum of the two vectors, within 2^-23 of the length of the sum (2^-45 away from the polar axis) plus 3e + 2^-48 of the lengths of the operands, as long as they do not nearly cancel; operator+, which converts three times, is within 2^-22 (2^-44). With a Cartesian first operand sum and operator+ agree and every component is within 2e + 2^-49. Between angular objects whose distances have one unit the numbers of sum do not depend on the other units at all. A number times an angular differential is within 120e + 2^-22 (away from the axis 120e + 2^-43) of the multiple, in the product of the units.", "quantifier": "for all doubles of usual size, all pairs of systems, all units and accurate conversion factors, all accurate mathematical libraries", "why_tests_cant": "Error bounds over all doubles, units and pairs of systems; a test compares a few sums with a tolerance somebody chose.", "anchors": ["include/boost/astronomy/coordinate/arithmetic.hpp: sum", "include/boost/astronomy/coordinate/rep/spherical_representation.hpp: operator+", "include/boost/astronomy/coordinate/diff/spherical_differential.hpp: operator+, operator*", "include/boost/astronomy/coordinate/rep/cartesian_representation.hpp: operator+"]}
{"id": "C142", "title": "Sums and products of coslat differentials with different units, in double arithmetic", "statement": "A coslat differential plus any differential, with any units: operator+ reads the stored numbers of the first operand as azimuth and polar angle (vector v) and those of a coslat second operand as azimuth p and polar angle c / cos p. With w the vector of the second operand there are an azimuth x, a polar angle y in [0, pi] up to 2^-52 and a length that stand for v + w within 2^-22 of its length (2^-44 away from the axis) plus 3e + 2^-48 (coslat second operand: 3e + 2^-46 / cos^2 p) of the operands, where e is the accuracy of the conversion factors, and the result, in the units of the first operand, stands for x, y cos x and that length with a further 2^-22 (2^-44; twice that for a coslat second operand). So the product with the cosine is in the result but not taken out of the first operand. A number times a coslat differential is as accurate as in C141.", "quantifier": "for all doubles of usual size, all units and accurate conversion factors, all accurate mathematical libraries, operands that do not nearly cancel", "why_tests_cant": "Error bounds over all doubles and units; a test compares a few sums with a tolerance somebody chose.", "anchors": ["include/boost/astronomy/coordinate/diff/spherical_coslat_differential.hpp: operator+, operator*, make_spherical_coslat_differential, make_cartesian_differential"]}
{"id": "C143", "title": "Chains of coordinate conversions through galactic coordinates, in double arithmetic", "statement": "A direction (two doubles) and any number of conversions one after the other, each with one of the four matrices of an angle or one of the two galactic matrices, k of them galactic: the computed direction is within (1 + 10^-7)^k (n 2^-23 + k / 2000) of the product of the exact matrices of the code applied to the direction, unless the latitude is NaN; if no exact direction on the way has a third coordinate above 4/5, there is no NaN and the bound is (1 + 10^-7)^k (n 2^-45 + 2 k 10^-7). Galactic conversions alone never give a NaN latitude, however many follow each other. Going to galactic coordinates and back is not the identity: the vernal equinox comes back more than half a radian away from where it was.", "quantifier": "for all doubles, all chains of any length (up to 2^32 conversions and 10^4 galactic ones for the finer bound), all mathematical libraries of the stated accuracy", "why_tests_cant": "Error bounds over all directions and all sequences of conversions; a test compares a few results with a tolerance somebody chose.", "anchors": ["include/boost/astronomy/coordinate/utility/utility.hpp: galactic_to_ra_dec, ra_dec_to_galactic, extract_coordinates, column_vector, ha_dec_horizon, ha_dec_ra_dec, ecliptic_to_ra_dec, ra_dec_to_ecliptic"]}
{"id": "C144", "title": "Elements of a column held in variables", "statement": "Any sequence of operations on the columns of a table and on elements kept in variables (auto p = column[row], x = p, p = x, p = q, column[row] = column'[row']) has exactly the results it has on plain arrays and notes: a variable goes on giving the value its element had when it was taken, even after p = x, although that stores x in the table and every later column[row] gives x; assigning one element to another of the same type, p = q or a[i] = b[j], stores nothing, the table keeps its texts (so elements cannot be swapped this way), and after p = q an assignment p = x goes to the place of q; the value of the expression a[i] = b[j] is an element that stands for b[j].", "quantifier": "for every table the constructors can build, all sequences of operations of any length, all element types", "why_tests_cant": "A test shows single statements; the claim is about every interleaving of reads, writes and variables, and that some statements that look like writes never write.", "anchors": ["include/boost/astronomy/io/column_data.hpp: Proxy, column_view::operator[], update_value, iterator::operator*"]}
{"id": "C145", "title": "Conversions with angles in degrees through galactic coordinates, in double arithmetic", "statement": "A direction given in degrees (or another unit) and n conversions one after the other, each by an angle in degrees with one of the four rotations or with one of the two galactic matrices, k of them galactic: if every angle is stored within e of its exact value (2^-40 rad for degrees up to a full turn), the computed direction is within (1 + 10^-7)^k (n 2^-23 + k / 2000 + (n + 2) e) of what the exact matrices of the code by the exact angles give, unless the latitude is NaN; if no exact direction on the way has a third coordinate above 3/4, there is no NaN and the bound is (1 + 10^-7)^k (n 2^-45 + 2 k 10^-7 + (n + 2) e).", "quantifier": "for all directions and angles, all chains of any length (up to 2^32 conversions and 10^4 galactic ones for the finer bound), all mathematical libraries of the stated accuracy", "why_tests_cant": "Error bounds over all directions, angles and sequences of conversions; a test compares a few results with a tolerance somebody chose.", "anchors": ["include/boost/astronomy/coordinate/utility/utility.hpp: column_vector, galactic_to_ra_dec, ra_dec_to_galactic, ha_dec_horizon, ha_dec_ra_dec, ecliptic_to_ra_dec, ra_dec_to_ecliptic, extract_coordinates"]}
{"id": "C146", "title": "A time of day through decimal hours, in double arithmetic", "statement": "A time of day (hours 0 to 23, minutes 0 to 59, seconds in [0, 60)) made a decimal hour from its three parts and taken apart by the constructor for one number comes back, as parts that are not negative with minutes and seconds below 60, within 10^-10 seconds. If the seconds are not within 10^-10 of a full minute, hours and minutes come back unchanged. A full minute comes back as itself or as the minute before with seconds just below 60; the second happens for the minutes 13, 28, 43 and 58 of every hour from 16 on, which print as the minute before with 60.000000 seconds. Times more than 10^-10 seconds apart keep their order.", "quantifier": "for all times of day and all ways of rounding halfway cases to the nearest double", "why_tests_cant": "The seconds are any double, and which full minutes fall back to the minute before depends on the rounding of two operations; a test looks at a few times.", "anchors": ["include/boost/astronomy/time/parser.hpp: decimal_hour(double), decimal_hour(h, m, s), get, get_hours, get_minutes, get_seconds, operator <<"]}
{"id": "C147", "title": "Separation of places given in degrees after coordinate conversions, in double arithmetic", "statement": "Two places given in degrees (up to a full turn) are converted by the same N conversions with angles in degrees, and get_angular_separation of the results is computed: it is within (4 N + 1) 2^-23 + 2^-37 rad of the exact separation of the two given places, or NaN and then they are that close to coinciding or being opposite, unless a latitude became NaN. For places that stay within 48 degrees of the equators on the way and are between 45 and 135 degrees apart there is no NaN and the bound is (4 N + 1) 2^-45 + 2^-37 rad. For other units: 8 times the error of the stored angles of the places takes the place of 2^-37, and how accurately the angles of the conversions are stored does not matter at all.", "quantifier": "for all places, all distances between 2^-400 and 2^400, all chains of the four rotations of any length (up to 2^32 for the finer bound), every library of the stated accuracy", "why_tests_cant": "An error bound over all places, angles and chains; a test compares a few results with a tolerance somebody chose.", "anchors": ["include/boost/astronomy/coordinate/utility/utility.hpp: column_vector, ha_dec_horizon, ha_dec_ra_dec, ecliptic_to_ra_dec, ra_dec_to_ecliptic, extract_coordinates", "include/boost/astronomy/coordinate/ref_frame/base_frame.hpp: get_angular_separation"]}
{"id": "C148", "title": "Values of cards that other programs wrote", "statement": "On a value card in the format of the FITS standard (value anywhere behind the indicator, optional comment), value<T>() gives the integer, logical or real number that is written there if there is no comment or a blank in front of its slash (an integer outside the type is refused). If the slash follows directly, the last byte of the value is lost: 100/ is read as 10, a one-digit integer or T/F is refused. A string without a slash is what is between the quotes, trimmed at both ends, which is the string the standard means exactly if it has no quote in it and does not begin with a blank; if the comment's slash follows the quote directly the last character is lost as well, and an empty string is undefined behaviour. A string with a slash in it is cut before the slash and loses two more bytes; with one character before the slash, as in the unit 'm/s', the behaviour is undefined, and a table with such a TUNIT cannot be opened. Complex numbers in the notation of the standard, (re, im), are always refused.", "quantifier": "for every 80-byte value card without a slash in its keyword, every integer, logical, real and printable string value, every position of value and comment", "why_tests_cant": "A statement about all cards other programs can write; the tests only read cards the library itself lays out in one way.", "anchors": ["include/boost/astronomy/io/card.hpp: value, value_imp", "include/boost/astronomy/io/default_card_policy.hpp: extract_value, parse_to", "include/boost/astronomy/io/ascii_table.hpp, binary_table.hpp: populate_column_data"]}
{"id": "C149", "title": "Images in files that other programs wrote", "statement": "For a primary header laid out as the FITS standard says (cards of other programs, blank filling to the least multiple of 2880, data likewise filled): if the number of cards is no multiple of 36 and there is an EXTEND card, the reader finds at that place a primary HDU with exactly the pixel type, the axes and the big-endian pixels that the bytes mean (8-bit pixels come out as zeros), and a file of just this HDU, with or without pixels, is opened. If the data fill their blocks exactly the next HDU is looked for 2880 bytes too late. If the number of cards is a multiple of 36 a file with one image is never opened: the call does not return. Without EXTEND, which the standard does not require, it is refused with out_of_range.", "quantifier": "for all card lists with the mandatory cards in any notation the standard allows (no slash directly behind a value), all pixel types, all axes, all pixels, all other cards, files below 2^63 - 5760 bytes", "why_tests_cant": "A statement about every conforming file of every other program, including the block arithmetic for all sizes; tests read a few sample files.", "anchors": ["include/boost/astronomy/io/fits_reader.hpp: read_entire_hdus", "include/boost/astronomy/io/fits_stream.hpp: find_unit_end, set_unit_end", "include/boost/astronomy/io/header.hpp: read_header", "include/boost/astronomy/io/primary_hdu.hpp: init_primary_hdu"]}
{"id": "C150", "title": "Tables in files that other programs wrote", "statement": "For a table HDU laid out as the FITS standard says, whose header does not have a multiple of 36 cards and has an EXTNAME card, the reader finds at that place a table with exactly the columns, names and rows the standard sees, each cell being the bytes of its field (for binary tables the repeat counts times the element sizes of L, B, A, I, J, E, D, C, M, a single bit X one byte; for ASCII tables TBCOL and the width in TFORM) without white space at the ends. A file of a data-less primary HDU and such a binary table is opened with these two HDUs; PCOUNT is ignored, so with a heap that ends in a later block the reader goes on inside the heap and never ends with just these two. Without EXTNAME, which the standard does not require, opening raises out_of_range; with a 64-bit integer column (K) or a variable-length array (P, Q) the file is never opened. With a column of two or more bits (X) and at least one row opening is undefined behaviour: the code takes a byte for every bit and reads behind the data. Extensions that are no tables, such as images, leave only an empty HDU in the list.", "quantifier": "for all card lists with the cards the standard requires in any notation it allows (no slash or quote in strings, no slash directly behind a value), all column layouts, all rows, all data, at any place behind any complete HDUs, files below 2^63 - 5760 bytes", "why_tests_cant": "A statement about every conforming table of every other program, for all layouts and sizes; tests read a few sample files.", "anchors": ["include/boost/astronomy/io/fits_reader.hpp: read_entire_hdus", "include/boost/astronomy/io/binary_table.hpp: set_binary_table_info, column_size", "include/boost/astronomy/io/ascii_table.hpp: set_ascii_table_info", "include/boost/astronomy/io/table_extension.hpp: table_extension", "include/boost/astronomy/io/header.hpp: data_size"]}
{"id": "C151", "title": "Whole files that other programs wrote", "statement": "A file laid out as the FITS standard says, of any number of HDUs (primary images with an EXTEND card, ASCII and binary tables as in C150, extensions of other kinds), is opened with exactly these HDUs in order, each showing what the standard sees in it, if no header has a multiple of 36 cards and no data but the last fill their blocks exactly. If the data of an HDU that is not the last do fill their blocks, the next HDU is never read, whatever it is, and if it is the last and takes one block only the file is opened without it. If the header of an image has a multiple of 36 cards and at least one block follows the data, the image is accepted with the pixels of the bytes that begin 2880 bytes too late.", "quantifier": "for all lists of HDUs, all card lists with the cards the standard requires in any notation it allows (restrictions of C149 and C150), all data, files below 2^63 - 5760 bytes", "why_tests_cant": "A statement about files of any number of HDUs with any contents, by induction over the HDUs; the exact block sizes at which HDUs get lost or pixels shifted do not occur in sample files.", "anchors": ["include/boost/astronomy/io/fits_reader.hpp: read_entire_hdus", "include/boost/astronomy/io/fits_stream.hpp: find_unit_end, set_unit_end", "include/boost/astronomy/io/default_hdus.hpp: construct_hdu, generate_extension_hdu"]}
{"id": "C152", "title": "Files for other programs", "statement": "A file written by the library from HDUs of known kinds with cards of 80 bytes is laid out as the FITS standard says exactly if no header has a multiple of 36 cards, no data fill their blocks exactly and no HDU is without data. Where an HDU without data ends according to the standard (the HDUs before it being laid out well), the file has a block of 2880 blanks instead of the next header. The data of every HDU that fit its header are as many bytes as the header announces, so that another program finds the end of the data where the library put it.", "quantifier": "for all lists of HDUs and all contents whose file is written without error, files below 2^63 - 2880 bytes", "why_tests_cant": "An equivalence between the layout of whole files and the sizes of all units in them, for any number of HDUs; tests reread files with the same library, which makes the same assumptions on both sides.", "anchors": ["include/boost/astronomy/io/header.hpp: write_header", "include/boost/astronomy/io/primary_hdu.hpp, ascii_table.hpp, binary_table.hpp: write_to", "include/boost/astronomy/io/fits_stream.hpp: find_unit_end"]}
{"id": "C153", "title": "Files of other programs opened and saved", "statement": "A file laid out as the FITS standard says that can be opened (C151) can also be saved. The copy has the same HDUs in the same order with the same cards, except that extensions which are neither ASCII nor binary tables are left out; the data of images of two or more bytes to a pixel are the same, the pixels of images of one byte to a pixel are all zero, the data of a binary table are its fields without the white-space bytes at their ends one behind the other (so with such a byte the data are shorter than the header announces), the rows of an ASCII table are its fields, right-justified, without the gaps between the columns. If no such loss occurs and all HDUs have data that do not fill their blocks, another program finds exactly the same HDUs in the copy.", "quantifier": "for all lists of HDUs, all cards in the notations of the standard (restrictions of C151), all data, files below 2^63 - 5760 bytes, copies below 2^63 - 2880 bytes", "why_tests_cant": "Tests compare a copy with what the library itself reads from it; which bytes of any file of any other program survive is a statement over all card notations, all tables and all data.", "anchors": ["include/boost/astronomy/io/fits_reader.hpp: read_entire_hdus, write_to", "include/boost/astronomy/io/primary_hdu.hpp: write_to", "include/boost/astronomy/io/ascii_table.hpp: set_table_data, write_to", "include/boost/astronomy/io/binary_table.hpp: set_table_data, write_to", "include/boost/astronomy/io/image.hpp: read_image, write_image"]}
{"id": "C154", "title": "HDUs of other programs' files by name", "statement": "In a file of another program that can be opened (C151), access by name goes by the kind of an HDU and not by its name: it gives the last HDU whose XTENSION card says the name asked for (for primary_hdu, the last HDU without such a card), and any other name, an EXTNAME included, is out of range. total_hdus() is the number of different kinds, not of HDUs. Reading only the headers finds the same HDUs under the same names, without pixels and cells.", "quantifier": "for all lists of HDUs, all cards in the notations of the standard (restrictions of C151), all names, files below 2^63 - 5760 bytes", "why_tests_cant": "Tests ask for the names in their sample files; that no EXTNAME in any file is found, and which of several tables is, are statements over all files and names.", "anchors": ["include/boost/astronomy/io/fits_reader.hpp: read_entire_hdus, read_only_headers, operator[], total_hdus", "include/boost/astronomy/io/header.hpp: get_hdu_name"]}
{"id": "C155", "title": "Values in tables of other programs", "statement": "In a file of another program that can be opened (C151), a value in a binary table, read through the column of its TTYPE name with a type whose bytes the field holds, is found exactly if its bytes neither begin nor end with a white-space byte (9 to 13, 32). A 16-, 32- or 64-bit number that loses one such byte is read as the remaining bytes followed by a zero byte (so 32 is read as 0), one that loses two or more is undefined behaviour. A field of an ASCII table is read as the text between the blanks, as the integer written there if that is in the range of 64 bits, and as the floating point number that C96 gives for the text; exponents with D, which the standard prescribes for D columns, and blank fields are refused.", "quantifier": "for all lists of HDUs, all cards in the notations of the standard (restrictions of C151), all tables, columns, rows and element types, all data, files below 2^63 - 5760 bytes", "why_tests_cant": "Which of all numbers in all tables come back right depends on single bytes of the data; tests see a few sample rows.", "anchors": ["include/boost/astronomy/io/binary_table.hpp: get_column, set_table_data", "include/boost/astronomy/io/ascii_table.hpp: get_column, set_table_data", "include/boost/astronomy/io/column_data.hpp: operator[]", "include/boost/astronomy/io/binary_data_converter.hpp: deserialize_to", "include/boost/astronomy/io/string_conversion_utility.hpp: deserialize_to"]}
{"id": "C156", "title": "Cards of other programs that carry no value", "statement": "Of the cards without value indicator, which the FITS standard declares to be commentary whatever their keyword, only those with a blank keyword, END and keywords beginning with COMMENT or HISTORY are accepted. Every other one, among them the CONTINUE cards of long strings and HIERARCH cards, is refused: a file with such a card in one of its headers cannot be opened in either mode, invalid_card is raised when the reader comes to it. The text of a commentary card, which begins at byte 9 of the card, is given by value_with_comment() only from byte 11 on, so nothing to be seen is lost exactly if its first two bytes are blank; value<string>() gives it from byte 10 on, and only up to two bytes before the first slash.", "quantifier": "for all cards of 80 bytes with a keyword of the standard, all commentary texts, all lists of HDUs in front of (restrictions of C151) and behind the one with such a card, files below 2^63 - 5760 bytes", "why_tests_cant": "Which files of other programs can be opened depends on every card in them; tests use a few files.", "anchors": ["include/boost/astronomy/io/default_card_policy.hpp: is_card_valid, extract_value", "include/boost/astronomy/io/card.hpp: card(std::string), value_with_comment, value_imp", "include/boost/astronomy/io/header.hpp: read_header", "include/boost/astronomy/io/fits_reader.hpp: read_entire_hdus, read_only_headers"]}
{"id": "C157", "title": "Changing values in another program's file", "statement": "A file of another program is opened, values in its tables are replaced through columns (update_value, or column[row] = x), columns may be read in between, and the file is saved. If its HDUs are images of more than one byte to a pixel, binary tables without white space at the ends of fields and ASCII tables without gaps whose fields are right-justified, and the new values have exactly the size of the field (binary; any bytes, also white space at their ends, as in the number 32) or not more than its width and no white space at their ends (ASCII), then all changes and the saving succeed, and other programs find the same HDUs with the same cards in the copy, in which exactly the bytes of the replaced fields differ: they hold the big-endian bytes of the new value, or its text behind blanks. The library can open the copy as well and shows the new values, without the white space at the ends of binary ones.", "quantifier": "for all lists of HDUs (restrictions of C153_kept), all contents of files of them, all programs of reads, loops, update_value and assignments by index on any of the tables, all element types per column, for every row and value; for an assignment by index the field must hold a value of the type before", "why_tests_cant": "The result depends on every byte of the file and on the whole sequence of changes; tests check single changes of sample tables in memory.", "anchors": ["include/boost/astronomy/io/fits_reader.hpp: read_entire_hdus, write_to", "include/boost/astronomy/io/column_data.hpp: update_value, operator =, operator[]", "include/boost/astronomy/io/binary_table.hpp: get_column, set_table_data, write_to", "include/boost/astronomy/io/ascii_table.hpp: get_column, set_table_data, write_to", "include/boost/astronomy/io/binary_data_converter.hpp: serialize"]}
{"id": "C158", "title": "Scaled integers in files of other programs", "statement": "Integers in FITS files stand for the values zero + scale x stored number, with BZERO and BSCALE (images) or TZERO and TSCAL (columns of tables). The library hands out the stored numbers whatever these cards say: a pixel of 16 or 32 bits, or an integer in a binary table, has the value it stands for exactly if zero + (scale - 1) x number = 0. So without the cards all values are right; with scale 1 and another zero than 0 none is; unsigned images, stored with BZERO = 32768 or 2147483648, come out lower by BZERO, dark pixels as large negative numbers.", "quantifier": "for all lists of HDUs and all contents of files of them (restrictions of C151), for every pixel of every image of 16 or 32 bits and for every 16-bit or 32-bit integer (without white-space bytes at its ends, see C155) in every binary table, for all integer scales and zeros", "why_tests_cant": "The values depend on the bytes of the file and on cards that the test files do not have.", "anchors": ["include/boost/astronomy/io/image.hpp: read_image", "include/boost/astronomy/io/primary_hdu.hpp: get_data", "include/boost/astronomy/io/column_data.hpp: operator []", "include/boost/astronomy/io/binary_table.hpp: set_table_data, get_column", "include/boost/astronomy/io/fits_reader.hpp: read_entire_hdus"]}
{"id": "C159", "title": "Statistics of images of other programs", "statement": "An image of 16 or 32 bits to a pixel in a file of another program depicts numbers q = BZERO + BSCALE x stored number. mean() of the opened image is (mean of the q - BZERO) / BSCALE, rounded once to the closest double (up to 2^38 or 2^22 pixels): the mean of the image only if the cards are missing or 1 and 0. For a positive scale max(), min() and median() are the stored numbers of the largest, the smallest and a middle one of the q (for an even number of pixels the upper of the two in the middle), and std_dev() of two or more pixels is zero exactly if all q are equal. So an unsigned image of numbers from 0 on can have a negative mean.", "quantifier": "for all lists of HDUs and all contents of files of them (restrictions of C151), every image of 16 or 32 bits to a pixel with at least one pixel, all integer scales other than 0 and all integer zeros, every std::nth_element that does what the standard says", "why_tests_cant": "The numbers depend on all bytes of the image and on rounding; tests compare the statistics of one sample file.", "anchors": ["include/boost/astronomy/io/image.hpp: read_image, mean, max, min, median, std_dev", "include/boost/astronomy/io/primary_hdu.hpp: get_data", "include/boost/astronomy/io/fits_reader.hpp: read_entire_hdus"]}
{"id": "C160", "title": "Elements kept in variables while tables are copied, moved and destroyed", "statement": "An element taken into a variable, auto p = table.get_column<T>(name)[row], goes on giving the value it had then, whatever becomes of the tables. As long as its table is not moved from, assigned to or destroyed, p = x changes the tables exactly as table.get_column<T>(name).update_value(row, x) does at that point: copying the table between does not matter, the variable stays with the original. Taken from a copy of a table whose column had been viewed before, p = x changes the original and not the copy. After the table was moved from, destroyed or overwritten by another one, reading p is fine and p = x right then is undefined behaviour. The pointer follows a move: if the table moved from gets new data, p = x writes the cell there, while the column of the table moved to shows x although its own cell is what it was. p = q between variables changes no table and makes p as good as q. Variables add nothing: a program that runs without an error and assigns to no variable whose table was taken apart does to the tables what the program without variables does, in which taking an element is reading it and p = x is update_value of what p stands for; if that program copies and moves no table with a viewed column, every table ends up as if tables were independent values.", "quantifier": "for all programs over any number of tables and variables (creating, copying, moving, assigning, destroying, replacing, reading, writing, taking and copying variables), all columns, element types, rows and values", "why_tests_cant": "The outcome depends on the order of copies, moves and views in the whole program; tests take one element of one table, and undefined behaviour may look right.", "anchors": ["include/boost/astronomy/io/column_data.hpp: Proxy, update_value, operator[]", "include/boost/astronomy/io/ascii_table.hpp: cached_columns, get_column", "include/boost/astronomy/io/binary_table.hpp: cached_columns, get_column"]}
{"id": "C161", "title": "Column views kept in variables while tables are copied, moved and destroyed", "statement": "A view kept in a variable, auto v = table.get_column<T>(name), goes on giving what it has read or written in a row until it writes that row itself, whatever becomes of the tables. A row it has not used yet it reads in the table object it was taken from, as that object is then: copies of the table do not matter, and if other data were put or assigned there, these are read, in the place the column had; if the object was destroyed or has no such cell any more (a table moved from is empty), it is undefined behaviour. Writing through it changes one cell of that table and nothing else: no other table, no other variable, and not the views the tables keep themselves. p = q between views changes no table, and p then reads and writes what q does.", "quantifier": "for all programs over any number of tables and views in variables, all columns, element types, rows and values", "why_tests_cant": "The outcome depends on the order of copies, moves, reads and writes in the whole program, and undefined behaviour may look right; tests use a view right after taking it.", "anchors": ["include/boost/astronomy/io/column_data.hpp: column_view, update_value, operator[]", "include/boost/astronomy/io/ascii_table.hpp: get_column", "include/boost/astronomy/io/binary_table.hpp: get_column"]}
