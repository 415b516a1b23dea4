NOTES = {
 "C05": ("partial", "Proved for every option combination except all three bits set together, where the code's two traversals disagree (witness theorem)."),
 "C06": ("proved", "Proved for the default and compress options the property names; also for every combination except include_all_delimiters alone, where the code disagrees (witness theorem)."),
 "C07": ("proved", "Includes the out-of-range read when a non-rotating predicate is reused without reset()."),
 "C11": ("partial", "Proved for 7-bit text; with any byte >= 0x80 the code reads outside its table (proved)."),
 "C12": ("partial", "remove_trailing keeps the first character of a text consisting of matching characters only (proved); everything else is as stated."),
 "C13": ("proved", "Pattern and replacement shorter than 2^31, result shorter than 2^64; the std::string overload. The iterator overload is not modelled."),
 "C15": ("partial", "The relation as stated is false of the code: witnesses of an unsound acceptance, a missed match and an out-of-range read. Proved: soundness whenever the scan does not overrun, and exactness for patterns without '*'."),
 "C16": ("proved", "Also proved: an empty pattern never terminates (outside the property's precondition)."),
 "C18": ("partial", "Proved for 7-bit text; bytes >= 0x80 reach toupper with a negative argument, undefined behaviour (proved)."),
 "C21": ("partial", "Memory safety of both decoders proved (base64: for texts of at least two characters; shorter texts read out of range, proved). Rejection is false: neither decoder validates its characters (witnesses)."),
 "C23": ("partial", "Iterator version and n-way tables proved; the string overload writes out of bounds for all texts of two or more characters (proved)."),
 "C25": ("partial", "False of the code: the loop never advances, so it diverges on every pair of equally long non-empty ranges (proved for all fuel)."),

 "C28": ("partial", "Canonical text proved for all types. Round trip proved for short, unsigned short, unsigned int, unsigned long long, and int / long long except the least value (parsing it overflows: proved); long / unsigned long (64 bits) only accept 32-bit values (proved)."),
 "C29": ("partial", "Exact acceptance proved for short and the unsigned types, for int / long long apart from the least value (undefined behaviour, proved); long / unsigned long reject representable values from 2^31 / 2^32 on (proved)."),
 "C31": ("partial", "Value, acceptance and rejection proved for 16/32/64-bit targets whose range contains the value; there is no range check (unsigned wraps, signed overflow undefined: witnesses) and the signed version reads *begin of an empty range (proved)."),
 "C32": ("partial", "Exact behaviour proved for every text; the value property holds for numerals of full width (C32_hex_sink_partial), short numerals land in the wrong bytes and over-long ones keep the old validity (proved)."),
 "C77": ("partial", "False of the code: the sink never reports a valid conversion, writes past the number for long texts and reads past the text for short ones (all proved)."),
 "C35": ("proved", "For lists other than the single empty string, whose join is empty and splits to no token (proved)."),
 "C39": ("partial", "Proved for r0 <= r1; for r1 < r0 the length wraps and the whole tail is delivered (proved)."),
 "C40": ("partial", "Proved for ASCII; for bytes from 0x80 on the signed index runs outside the table (proved undefined)."),
    "C41": ("partial", "Proved for every sequence of calls with n < 2^32 (values modulo 2^64). n_choose_k(0,0) returns 0 (C41_zero_zero); for n >= 2^33 the table size wraps and the static table is read out of bounds (C41_wrap_ub)."),
    "C83": ("partial", "Lengths 0 and >= 4. For lengths 1..3 the code writes in front of the buffer (C83_short_buffer_ub). Alignment is not modelled."),
    "C48": ("partial", "Proved for every history of calls; arguments: sizes of types below 2^31, field sizes below 2^63, no seek(INT_MIN), &v[0] of an empty vector harmless, right-padded fields excluded (C49). Each restriction has a counterexample."),
    "C49": ("partial", "Left padding, full-size and failing fields proved. Right padding of a non-empty shorter text always reads outside the string (C49_right_padding_broken)."),
    "C51": ("partial", "swap proved outright. remove and insert copy between overlapping ranges with memcpy: correct if memcpy behaves like memmove, undefined by the standard except at the end (C51_remove_overlap, C51_insert_overlap); insert behind the end is not checked (C51_insert_behind_end)."),
    "C53": ("partial", "find_prefix is exact for every non-empty key. find() is exact only for prefix trees in which no two keys differ in just their last character: keys sharing all but the last character share one value slot (C53_shared_value), and a key never inserted can be reported (C53_phantom_key). The empty prefix is never found (C53_empty_prefix)."),
    "C55": ("partial", "Proved while each compression removes at most half of the table. Removing more writes behind the new table (C55_overflow); clear() after a compression writes behind it too (C55_clear_after_compress)."),
    "C59": ("partial", "Exact description of success, failure and failure count for every text, registration and converter. Numeric keys depart from the property: an empty key is key 0 (C59_empty_key), in key_map<unsigned int> a malformed key is 4294967295 and larger numbers wrap (C59_number_confusion)."),
    "C60": ("proved", "Texts shorter than 2^32 - 1 bytes. The row split option is ignored by the code: empty lines are always skipped, which is what the property asks for."),
    "C61": ("proved", "Any history of remove_row, remove_row_if, remove_token_if and the enforce functions. min/max column counts are not refreshed by remove_row and remove_row_if."),
    "C62": ("proved", "remove_token_if; histories are covered by C61_history."),
    "C63": ("partial", "Whole-grid ranges proved; for other ranges the code ignores the range (C63_range_ignored, C63_counterexample)."),
    "C66": ("partial", "Consecutive, disjoint, covering, stop at the first false: proved. A signalling row that directly follows the start of a range, or only signalling rows, does not split (C66_counterexample)."),
    "C87": ("partial", "Columns inside the row proved, and parse(range,...) outright. Other columns read the next row's tokens, or behind the token list in the last row (C87_reads_next_row)."),
    "C85": ("partial", "Balanced lines (even number of double quotes per line), default and compress options; trimming for texts that end with a row delimiter. Counterexamples for the rest: C85_unbalanced, C85_trim_reads_past_end, C85_trim_inverts."),
    "C67": ("partial", "Distinct file names and a disk with room. Copying a file onto itself or a failing copy empties the destination, a full disk is reported as success, concatenate(a,b,a) loses a: proved as negative results. identical/load/exists/size proved outright."),
    "C68": ("partial", "n >= 1 for the _n versions: with n = 0 they process every line (C68_zero_is_all). Everything else proved."),
    "C88": ("partial", "Round trip for values, arrays and sequences when the disk has room; the array overloads return the inverted flag and the container write_pod lacks a return statement (negative theorems)."),
    "C89": ("proved", "Given room in the buffer; there is no bound check (C89_overflow)."),
    "C90": ("proved", "Buffer and string versions."),
    "C69": ("partial", "equal/notequal proved; within/notwithin except for two empty texts; begins_with/ends_with in fact decide equality (C69_begins_ends), so longer texts are refused (C69_proper_prefix_refused)."),
    "C70": ("partial", "expect, inrange (linear orders), fill_array proved; iexpect for 7-bit texts (C70_iexpect_high: undefined behaviour otherwise). NaN passes every range (C70_inrange_nan)."),
    "C74": ("partial", "The flag is inverted for every token (C74_inverted, C74_never_as_documented); what holds is C74_split_partial."),
    "C92": ("partial", "Copies work while the original lives; afterwards they read freed memory (C92_dangling)."),
    "C93": ("partial", "trim_trailing keeps one character of a token of removable characters only (C93_trim_trailing_keeps_one); the rest proved."),
    "C94": ("partial", "Case-insensitive filter exact on 7-bit texts; the case-sensitive one matches prefixes and reads beyond the token, and the string overload with allow=false forwards everything (negative theorems)."),
    "C72": ("partial", "Proved for 7-bit text. A byte above 0x7F is sign-extended and indexes the table far outside (C72_high_bytes)."),
    "C73": ("proved", "parse_columns: success, missing column, non-converting column, decreasing columns; column_selector: delivery. The selector object keeps its error count private, so it cannot report failure."),
    "C75": ("partial", "make_string, clear_array and set_array from a string are proved for all inputs. set_array from an array is right only for equal sizes: a shorter source is over-read (C75_set_array_arrays_over_read)."),
    "C95": ("proved", "An empty range is undefined behaviour."),
    "C71": ("partial", "For every non-empty range the result is a rotation of it, and which one is characterised exactly (C71_result); it is the least rotation, and equal exactly for rotations of each other, when no suffix that begins with a smallest element also occurs earlier. Otherwise it need not be the least one (C71_not_least: 121). An empty range is undefined behaviour."),
    "C96": ("partial", "Handles bound directly, and copies used while the original is alive and unchanged, deliver to the right variable (C96_values_partial, C96_copy_while_original_partial). False in general: the copy constructor copies the pointer into the original's internal buffer, so a copy dangles when the original dies (C96_copy_dangles), and assigning an unbound handle does not unbind (C96_assign_unbound)."),
    "C97": ("partial", "Proved for histories of assignments to an attribute constructed with a value (C97_attribute_partial). False otherwise: a parse changes the value without updating the previous one (C97_parse_not_remembered), and a default-constructed attribute of arithmetic type reads an indeterminate value at its first assignment (C97_default_scalar)."),
    "C98": ("proved", "Sequences, sets and multisets. The std::queue overload does not compile."),
    "C99": ("partial", "Complete if multimap::find returns the first entry of the key, as common implementations do (C99_value_list_partial); for every result the standard allows, an end piece of the key's values and nothing else (C99_value_suffix). The standard allows a find that makes the list incomplete (C99_incomplete)."),
    "C100": ("proved", "With the ownership condition, which is necessary (C100_needs_owning)."),
    "C101": ("proved", "std::sort is taken as a sort of a total order."),
    "C102": ("partial", "Numbers written with a point, exact arithmetic. For a number without a point the iterator is moved behind the end of the text (C102_no_point): inside a larger text the next character is taken for the point and the following ones for the fraction (C102_reads_on), while inside its token the sink is independent of the surrounding text (C102_in_text); more than int_size digits make the code skip one character instead of refusing (C102_skips_a_digit)."),
    "C103": ("partial", "Proved for sinks constructed from delimiters. The constructor that takes the container leaves the count uninitialised, so parsing with it is undefined unless count() is called (C103_bound_constructor); the option given to the constructor is lost when a container is bound without one (C103_option_lost)."),
    "C42": ("partial", "Proved for 1 <= k <= 21, also for texts (C42_string_partial) and with every arrangement reached (C42_onto_partial, C42_string_all_partial). From k = 22 the factorials overflow (C42_overflow_wrong), from k = 67 the code divides by zero (C42_division_by_zero). The iterator overload writes iterators instead of elements (C42_range_partial)."),
    "C43": ("partial", "Proved for r < 2^32 and C(r,k) < 2^64 through an appending output iterator, and over a range of elements (C43_range). Through a plain iterator the complement overwrites the combination (C43_pointer_overwrites); k < 2 reads out of bounds (C43_k_lt_two)."),
    "C30": ("partial", "Accepted texts are characterised (C30_accepts_only_partial) and usual notation is converted to exactly the number denoted in exact arithmetic (C30_value). In binary floating point with p bits, round to nearest even, without overflow and underflow: integers of at most p bits are exact (C30_integer_exact), integers with small exponents and pure fractions are correctly rounded (C30_correctly_rounded, C30_fraction_correctly_rounded), and everything the tables cover has a bounded relative error (C30_error_bound). The claim is false in four ways: a fraction of 2^32 + k digits is scaled like one of k digits (C30_fraction_wraps), any non-digit after e is accepted before a suffix letter (C30_stray), more than 615 fraction digits or an exponent below -615 read outside the table (C30_deep_fraction, C30_deep_exponent), and exponents above 308 are multiplied by ten (C30_large_exponent)."),
    "C104": ("partial", "All calls but *= behave as described (C104_history_partial covers every history that keeps the stated conditions, with *= n giving n+1 copies); C104_times_disagrees proves that s *= n differs from s * n for every non-empty s. remove_trailing needs a character that stays (C10)."),
    "C105": ("partial", "Right for containers with every bound (C105_container) and for ranges with bounds below 2^63 (C105_range_partial); C105_range_disagrees proves that with larger bounds the range calls give the opposite answer, because the bound is converted to a signed type."),
    "C106": ("partial", "Size, elements, as_string and writes are right (C106_view, C106_write); the conversion to std::string is right for const char only (C106_convert_partial) and gives an empty text for char and unsigned char (C106_convert_disagrees)."),
    "C13": ("proved", "Pattern and replacement shorter than 2^31, result shorter than 2^64; for the iterator overload the text is shorter than 2^31 and the output iterator appends. With an output iterator that does not append (outside the statement, which speaks of the result) C13_plain_iterator shows that the pieces overwrite each other."),
    "C107": ("partial", "Explicit ranges proved. range(a) uses the number of tokens as its upper bound, so it is accepted only if every row has one column (C107_open_end_rejected)."),
    "C108": ("partial", "Histories whose files can be read and are not empty. A failed load deletes a buffer of the caller (C108_failed_load_frees_callers_buffer) or leaves the rows pointing into a deleted one (C108_failed_load_dangles); a load that runs out of memory does the same while the grid still calls itself loaded (C108_no_memory_frees_callers_buffer, C108_no_memory_dangles)."),
    "C109": ("partial", "Everything proved except that parse_n returns 0 when a token does not convert although values were appended (C109_parse_n_fails)."),
    "C54": ("proved", "No false negatives proved for every history on table sizes that are a positive multiple of 8 bits; C54_exact says exactly which keys are reported (all bits set by the inserted ones). A minimum_size that is not a multiple of 8 leads to out-of-range indices (C54_odd_table_size); the copy constructor, and so & | ^, read uninitialised members (C54_copy_undefined)."),
    "C56": ("partial", "Round trip and operator== proved for tables below 4 GB; the length field is 32 bits, larger tables are truncated (C56_large_truncated)."),
    "C64": ("partial", "Appending output iterators (inserters) proved, for one to five columns. The iterator is passed on by value, so plain iterators are never advanced (C64_plain_iterator)."),
    "C65": ("partial", "Rows other than the last, without empty tokens. The last row loses its last token (C65_last_row, C65_counterexample); no delimiter follows an empty token (C65_join_row_exact); join_column with a predicate omits the delimiter before the last token (C65_join_column_if_last; C65_join_column_if is the text for all predicates and columns)."),
    "C110": ("partial", "Histories with assignments only between inserters of the same container. Assigning an inserter of another container overwrites the contents of its own container (C110_assign_overwrites). Functions that write with *(out++) = x call a copy of a function object each time, so its state is lost (C110_function_copies)."),
    "C111": ("proved", ""),
    "C112": ("proved", "Assignments of T are assumed not to throw."),
    "C113": ("partial", "All types except long and unsigned long, which are taken to have 32 bits (C113_long_too_short)."),
    "C114": ("partial", "Proved for all histories in which assignments are between tokenizers with the same predicate and predicates outlive tokenizers. False otherwise: operator= copies the cached first token but not the predicate (C114_assign_mixes), and the predicate is held by reference (C114_dangling)."),
    "C115": ("proved", "For a linear order as comparator; the standard containers themselves (insert, push, front, top, pop) are modelled by their specification."),
    "C81": ("proved", "In p-bit floating-point arithmetic with rounding (p = 53 for double) for ranges of at most 2^p elements (2^p/8 for reachability of every result), and in exact arithmetic. The code's own range test also lets a generator through that returns exactly 1.0, which makes it read behind the deque (C81_one_out_of_bounds)."),
    "C82": ("proved", "In exact arithmetic and in p-bit floating-point arithmetic with rounding, numbers in [0,1)."),
    "C116": ("proved", "std::next_permutation is modelled by its algorithm and proved to give the next arrangement. The function is assumed not to change the range. C116_not_sorted: from an unsorted range some arrangements are never visited."),
    "C117": ("proved", "A clock set back by less than a second makes the timer report a number just below 2^64 (C117_clock_set_back). The conversion to seconds is in C177; the Windows branch is not modelled."),
    "C118": ("partial", "Proved for programs that copy and assign only tries into which nothing was inserted yet. The class has only the compiler's copy operations: a copy of a filled trie shares its nodes (C118_copy_shares) and they are deleted twice (C118_copy_deleted_twice); assigning to a filled trie loses its nodes (C118_assign_leaks)."),
    "C119": ("partial", "Non-empty ranges. Copies share the range, so the value of it++ shows the combination after the step and equals the moved iterator (C119_copies_follow, C119_post_increment_skips); over an empty range the one empty combination is never visited (C119_empty_range)."),
    "C120": ("partial", "Probabilities strictly between 0 and 1, requirement below 2^64-8 bits, in real arithmetic (the rounding errors of double are C181). When the requirement truncates to a multiple of eight the table can be up to one bit short (C120_probability). A probability of 0, above 1 or NaN is accepted and leads to an undefined conversion (C120_zero_probability, C120_probability_above_one); with default limits a requirement below one bit gives a one-bit table whose use writes out of bounds (C120_default_limits, C120_one_bit_table)."),
    "C121": ("partial", "The engine's matches are an argument (boost is not part of the repository). With token_count 0 one token is delivered (C121_zero_delivers_one)."),
    "C122": ("partial", "Proved for all texts without strtk_use_lut and for 7-bit texts with it; with it a byte from 0x80 on behind digits reads in front of the table (C122_lut_high_byte)."),
    "C123": ("proved", "The hash is proved equal to an arithmetic specification on natural numbers; injectivity for keys of one, two and four bytes. Keys of eight bytes do collide under salts below eight (C123_hash_collision). Little-endian host; unaligned reads through casted pointers are taken as reads of bytes."),
    "C21": ("partial", "Both decoders are described exactly for every text (C21_hex_exact; C21_base64_exact for two or more characters). Rejection is false: neither decoder validates its characters; shorter base64 texts read out of range (proved)."),
    "C23": ("partial", "Iterator version and n-way tables proved, texts of different lengths are refused; the string overload writes out of bounds for all texts of two or more characters (proved)."),
    "C52": ("partial", "Finding and splitting proved (ranges shorter than 2^31, n >= 1), the strings put out being given run by run over the maximal runs (C52_split_strings, C52_words), including the letter/digit/whitespace classes (C52_types). In ranges of a multiple of 4 GB nothing is found (C52_four_gigabytes); match_atleast_n misses runs that reach the end (C52_match_atleast_wrong), split_on_consecutive_n returns up to n+1 matches (C52_split_n_one_too_many), a stateful predicate can move the iterator past the end (C52_stateful_past_end)."),
    "C124": ("proved", "The output format of the stream is the standard library's and is specified (%.10g). The arithmetic of the conversion back has no overflow or underflow in the range of the statement; the sign of zero and nan is not modelled."),
    "C125": ("partial", "Round trip and bounds proved (disk with room, types as in C47). A file that is too short is not reported: the call returns true and the rest of the buffer is stale (C125_short_file)."),
    "C46": ("partial", "Proved for 16 and 64 bits, on the wire and in memory, on little- and big-endian hosts. The 32-bit convert has its masks swapped: it loses two bytes (C46_convert32_wrong, C46_convert32_not_involution), so every number with a non-zero byte 0 or 2 comes out wrong (C46_swap32_wrong)."),
    "C31": ("partial", "Value, acceptance and rejection proved for 16/32/64-bit targets whose range contains the value; there is no range check: an unsigned target takes every text of up to 19 digits, the empty one too, modulo 2^bits (C31_unsigned_wraps), signed overflow is undefined (witness), and the signed version reads *begin of an empty range (proved)."),
    "C126": ("partial", "The parser is decided for every text (C126_ipv4_exact); the property holds for up to nine digits per piece and four non-empty pieces, and the round trip for every address. Pieces behind the fourth are ignored, empty pieces are taken as 0 and numbers wrap modulo 2^32 (all proved)."),
    "C127": ("proved", "The output itself is given for every input."),
    "C128": ("proved", "Lines, delimiters, splitting, case conversion and the map are those of the other properties; the printing of the result is not modelled."),
    "C129": ("proved", "Streams fail only at the end of the text."),
    "C130": ("partial", "The sequence version is proved. The versions for single targets read argv[1] ... argv[argc] (C130_values_partial): called with the argc and argv of main they never succeed and make a string from the null pointer argv[argc] once all arguments behind the first have converted (C130_values_of_main, C130_one_of_main)."),
    "C57": ("partial", "Determinism and the exact value are proved for every length, the value of a step over the natural numbers (C57_step_value); a fold over all bytes only for lengths that are a multiple of 64 plus 0, 2, 4, 8, 16, 32. For other lengths trailing bytes are ignored (C57_ignored), so distinct texts collide (C57_collisions)."),
    "C131": ("partial", "split and split_n take delimiter strings of every length. remove_leading, remove_trailing and remove_consecutives_inplace look at the first 256 characters only (C131_cut_off); up to that length they are as stated."),
    "C132": ("proved", "std::sort is taken as the sorted rearrangement; the text of the usage messages is not modelled. A k of 2^32 or more is not a numeral for the converter to unsigned long (C29)."),
    "C15": ("partial", "The relation as stated is false of the code: witnesses of an unsound acceptance, a missed match and an out-of-range read. Proved: the answer for every pattern and text in terms of a greedy specification (match_greedy); for one '*', exactness when the character after it occurs once in the rest (one_star_partial), and the failures otherwise (one_star, star_first_only); soundness whenever the scan does not overrun; exactness for patterns without '*'."),
    "C133": ("partial", "Proved for patterns and lines that match decides rightly (C15). Missing because false: with a pattern such as *.hpp, the documented use, a nonempty line without '.' makes match read behind its end (file_name_patterns)."),
    "C134": ("proved", "Draws are independent real numbers from [0,1); the program draws doubles from boost or <random>."),
    "C135": ("proved", "Draws are independent real numbers from [0,1) and the two expressions using them are evaluated exactly; the program computes in double (C81, C82 cover rounding as to safety)."),
    "C136": ("proved", "The arithmetic of double is a parameter: the theorems hold for any. Undefined outcomes of the conversion (C30) and of the cast are never acceptance."),
    "C137": ("proved", "Same lines: with floating-point draws of p bits. Fairness: draws are independent reals from [0,1)."),
    "C138": ("proved", "Elements of a linear order, distinct and sorted, 2 <= k, range shorter than 2^32, C(r,k) < 2^64, appending output iterator. C138_no_resume_without_rest shows that the loop of strtk_nth_combination_example.cpp 136-143, announced as iterating to the end, shows one combination."),
    "C139": ("proved", "C139_report: the lines written are those of the specification, for any table; C139_nan: a NaN cell is undefined behaviour; C139_usage."),
    "C140": ("partial", "error bound proved for integers below 1.797693134e308 before the point, up to 307 digits behind it, exponents -615 to 308 and values up to 1.797693134e308, including subnormal results; false beyond: 310 significant digits before or behind the point give infinity whatever the exponent (0.111...1 with 310 ones), any non-zero number with an exponent from 309 to 9999 is infinite (0.001e310; from 1000 on only without a suffix letter), and zero with such an exponent (0e309) is read as NaN"),
    "C141": ("partial", "the list without its empty tokens is the list of words; but the compressing split leaves an empty token at each end of a line at which a delimiter stands, and the program counts them: exact count proved"),
    "C142": ("partial", "proved for files of 7-bit characters; a two-byte word that begins with a byte from 128 to 254 is handed to std::toupper as a negative number (C142_high_byte)"),
    "C143": ("proved", "The output format of the stream is the standard library's and is specified (%.10g). Zeros have no sign in the model; nan has none either."),
    "C144": ("proved", "n and k are parameters of the model; with n = 6 and k = 4 it is the program."),
    "C145": ("partial", "the tables are proved exactly, with the two columns of the second equal; but nth_combination_sequence completes the choice by default, so each line shows the chosen elements followed by all the others (0000 | 012345 | ABCDEF) and not the line of the description (0000 | 0123 | ABCD): C145_not_as_described, for every k < n"),
    "C146": ("proved", "The map is any look-up function; the three maps of the library are such functions (C59_uint_find, C59_number_find, C59_string_find). C146_failure_order shows that order matters after a failure."),
    "C147": ("proved", "Times and rates are not modelled; the file is read back as written. C147_odd_overrun: with an odd k the loop over half elements can read behind the buffer (k = 7 of 7 letters)."),
    "C148": ("proved", "The exact outcome of the four pointer overloads for every input and buffer: result, rest of the buffer, size, and undefined behaviour when there is less room."),
    "C149": ("proved", "Sizes, texts and rounds are arguments; with buffers of one byte the second example would overrun (C149_size_one). Times are not modelled."),
    "C150": ("proved", "The condition on the keys is met by the program's keys and needed in general (C53_shared_value). std::map and std::set are taken as specified. Times are not modelled."),
    "C151": ("proved", "The converters of the members other than ui1 and the lists are arguments (C28-C30). After a refused text the lists are not reset and its elements are shown with the next text (C151_leftover); the property speaks about texts that are accepted. Times are not modelled."),
    "C152": ("proved", "The conditions on cells and rows are stated in the property; that empty lines are dropped and that compression loses empty cells is proved too (C152_empty_line_dropped, C152_compress_drops_empty)."),
    "C153": ("proved", "Integer sums in place of unsigned long long and double ones. token_grid_test09 prints the last row without its last cell: that is C65. The other functions of the program (test01-06, 08, 09, 11, 13, 15) are calls whose behaviour is C60-C66, C85-C87, C109."),
    "C154": ("proved", "Persons with any contents, step and count; the comparison is a parameter, so NaN fields are covered. Composes C47 (with the exact room of Binary/Room.lean), C49, C125, C28 and C29. A negative number shorter than its field is never read back, since the zeros come before the sign (C154_padded_negative)."),
    "C47": ("partial", "A program of writes succeeds exactly when the buffer offers the room it needs, and reads give the same values back exactly when it offers the room they need, with no assumption about sizeof (C47_write_room, C47_read_room); without deques, lists and queues what was written is always read back (C47_vectors_read_back). Where elements are not smaller in the buffer than sizeof the room is the length of the serialised form (C47_write_succeeds, C47_write_read_partial). Reading into a non-empty set gives the union (C47_set_union). Negative theorems show why the rest is false: 2^32 characters, tight buffers, nested deques, empty POD vectors."),
    "C156": ("partial", "Proved after initialize_n_choose_k for all calls with n other than 100, with no write at all; n = 100 races (C156_hundred_races), since initialize_n_choose_k stops at 99. Without initialize_n_choose_k the first calls race (C156_first_calls_race) and a schedule gives a wrong result (C156_first_calls_wrong). With the table initialised but not full, results are right in every interleaving of atomic accesses (C156_initialized_partial)."),
    "C157": ("proved", "States of the file system after each byte that reaches a file; C157_states_end ties them to the functions. C157_old_contents_lost and C157_every_beginning show that nothing stronger holds (no atomic replacement). Loss or reordering inside the operating system's cache is not modelled."),
    "C158": ("partial", "Proved for Bloom filter files and for values read by a binary reader whose buffer is as long as the file. False for text files (C158_text_unnoticed: a cut is never noticed for lines of text; C158_text_cut_short says exactly what is loaded) and for reader(stream, length) with a length known from elsewhere (C158_known_length_unnoticed: the rest of the value comes from the old contents of the buffer)."),
    "C159": ("proved", "std::cout << unsigned is taken as the decimal text (C28_unsigned_text for the same text from type_to_string). C159_event_unnamed: the condition on the name is needed. The id limit is the one of C29_unsigned_long_partial."),
    "C160": ("partial", "C160_enough_memory: true while memory lasts. False in general: an assignment that gets no table leaves a dangling pointer that is deleted again (C160_failed_assignment), a read that runs out of memory loses the file's buffer (C160_failed_read), a compress stopped at its last statement searches behind the table (C160_failed_compress). C160_any_failure_partial: whichever requests fail, nothing else goes wrong as long as no assignment fails for want of a table, and exactly one buffer is lost per failed read. The growth of a vector counts as one request."),
    "C161": ("partial", "True for calls that return (C161_returned), for trying again (C161_retry), and while memory lasts (C161_enough_memory). False: a failing push_back loses the new node (C161_leak; C161_nodes: at most one node per failed call, everything else is freed), and a failed insertion can make a key appear that was never inserted (C161_phantom); C161_threw_partial says exactly which questions can be answered differently afterwards. A push_back that needs no memory is a request that does not fail."),
    "C162": ("proved", "The conversion works in double (C140, C143) and narrows at the end; the narrowing is modelled as IEEE 754 rounding to nearest even with overflow to infinity. Signs of zero and nan are not modelled."),
    "C155": ("proved", "Composes C01-C06, C28, C31, C33, C37, C74, C143 and C162; also the record of strtk_parse_test.cpp (C155_record, C155_construct_members: every float, every double that is an integer of up to ten digits). The comparison of reals (not_equal) is a parameter. At the least int the fast conversion overflows (C155_fast_least)."),
    "C77": ("partial", "False of the code: the sink never reports a valid conversion, writes past the number for long texts and reads past the text for short ones (all proved). C77_base64_sink_partial says exactly what every assignment does: which texts are refused, where the bytes go, and when it writes outside the number."),
    "C163": ("partial", "For texts of ASCII characters (C70_iexpect_high). Claims that fail: the number nan is in every range (C163_temperature_nan), a field of nothing but characters to trim keeps one of them (C93), the numeral of the least int overflows (C29). The block with wildcards (strtk_examples.cpp 975-1000) is not treated: see C15."),
    "C164": ("partial", "Proved for base64 decoding, bitwise_transform with either or both inputs shared, hexadecimal decoding of raw memory, patterns that are the output, replacements of the pattern's length and texts without an occurrence. False elsewhere, with the exact effect proved: encoding a string into itself writes behind it; string hexadecimal decoding handles only the first half; a shorter replacement leaves the last characters where they were or leaves the string, a longer one always leaves it; a replacement that is the output is overwritten before its last use (instance); replicate gives 2^n copies; join and bracketize use everything written so far as delimiter or bracket."),
    "C165": ("proved", "C165_row, C165_column and C165_column_if hold for every conversion and addition, C165_additions gives the additions of the integer types; C165_table_unsigned and C165_table_signed compose them with C29. A signed sum that leaves the range of its type on the way is undefined behaviour (part of the theorem). The number returned for a column also counts rows without it (C86)."),
    "C91": ("proved", "Sequences, queues and stacks by their element order; sets, multisets and priority_queue are loaded by the loops of C115."),
    "C86": ("partial", "The count returned by accumulate_column includes rows without the column (C86_counts_missing_rows); everything else proved, including the overloads with a row predicate and all column widths. Sums are unbounded integers here; C165 treats the types of the machine."),
    "C166": ("partial", "True is exact (C166_any_file, C166_complete_file), and reading a complete file or an assignment repairs every filter (C166_assigned). False: a refused read has already emptied the filter, which then claims to contain everything or cannot be asked (C166_refused, C166_cut_file says which by the point of the cut); an accepted file need not give a usable filter (C166_accepted_unchecked); a compressible filter keeps the sizes of its own construction, so it answers right only if they agree (C166_compressible_same_size, C166_compressible_other_size)."),
    "C167": ("partial", "The crash clauses are proved for filters (C167_crash) and plain objects (C167_pods_crash); C167_states_end ties the states to the functions. That true means readable is false: the result of the last write is ignored, so a full disk goes unnoticed (C167_full_disk); with room enough it holds (C167_saved)."),
    "C169": ("partial", "Proved for remove_inplace (C169_remove_inplace, C169_remove_inplace_rest), delete_if (C169_delete_if), for_each_combination and for_each_permutation. For token grids what is left is given exactly (C169_remove_row_if, C169_remove_token_if: all accesses defined, rows not yet looked at unchanged, and with nothing removed before, everything unchanged: C169_remove_row_if_early), but the last part is false: rows already looked at can show tokens of other rows (C169_remove_row_if_wrong, C169_remove_token_if_wrong). remove_inplace can leave a sequence that is neither the old nor the new one (C169_remove_inplace_neither). The _returns theorems show that without exceptions the models are those of C09, C100, C61 to C63."),
    "C168": ("partial", "Proved for threads that only ask (C168_queries, without data race), for a lock around every call (C168_locked, with C168_all_done), and for every schedule the bounds (C168_safe) and that nothing is invented (C168_nothing_invented). With one thread inserting the result is exact and nothing is missed in every interleaving of single accesses (C168_one_writer, C168_one_writer_found; more generally C168_nothing_lost), but this is a data race in C++ (C168_reader_races), so it rests on accesses to single cells being atomic. False for several inserting threads: keys and counts are lost (C168_key_lost, C168_count_lost), and two inserting threads race whatever their keys (C168_writers_race)."),
    "C170": ("proved", "C170_additions and C170_additions_exact are about adding up doubles one after the other; C170_table and C170_table_exact compose them with C165_column, C140_error_bound_partial and C140_integer_exact for columns written as text. Rows, ranges of rows and predicates are covered by C165_row, C165_column and C165_column_if, which hold for every addition. C170_order_matters: the error is relative to the sum of the absolute values, not to the sum, and the order of the rows matters. Arithmetic is IEEE binary64 without extended precision; zeros have no sign."),
    "C171": ("partial", "Proved for every history in which no file load fails to get its buffer while the grid still has a buffer of the caller's: memory safety, no leak, exactly the rows that fitted, full recovery. False otherwise: C171_frees_callers_buffer, C171_constructor_leaks, C108_no_memory_dangles."),
    "C172": ("partial", "Proved of split (all options) and split_n for arbitrary stateful predicates and outputs that may throw at any point: no undefined behaviour and tokens in order (C172_safe, C172_safe_n), prefix under an earlier exception (C172_prefix, C172_prefix_n), exactly the tokens before the refused one for a throwing output (C172_output_throws, C172_output_throws_n). With no options, compressed delimiters, or the first delimiter kept: the tokens of a predicate that remembers are those of the text annotated with its answers (C172_remembers), the questions are the characters in order (C172_questions), and an exception at question m leaves the tokens ending before m (C172_throws_at). Three parts are false of the code: a last character answered yes is asked about again and its token dropped if the answer changed (in C172_remembers and C172_questions), with two kinds of options characters are asked about twice (C172_asks_twice), and with all delimiters kept a predicate with alternating answers makes split loop for ever, sending tokens (C172_all_delimiters_forever)."),
    "C173": ("proved", "Converters and containers are arbitrary functions of the state of the world that may throw; a container that throws is as before the call, the strong guarantee of the standard. The array of tokens of parse is on the stack; the list of tokens of the overloads with a container may run out of memory at any token."),
    "C174": ("partial", "Proved of all options: no undefined behaviour and shown tokens in the text for every history of increments with caught exceptions (C174_safe), the prefix law (C174_prefix); of all options except all delimiters kept alone: the walk ends (C174_ends_partial); without compression and not with all delimiters kept alone, and if the last character gets the same answer again: the tokens are those of the text annotated with the answers (C174_remembers_partial). The rest is false of the code, as proved: with all delimiters kept an alternating predicate gives empty tokens for ever (C174_forever), an exception loses the part of the token already scanned (C174_loses), an exception from the question about the last character leaves an iterator that shows a token stretched to the end of the text (C174_last_question), the last character is asked about twice and a changed answer makes overlapping tokens (C174_again), with compressed delimiters other characters are asked about twice too (C174_twice), and there an exception behind a token leaves the iterator showing the new token, which a caller that increments again never uses (C174_skips; with all delimiters kept the old one stays, C174_all_run). With plain predicates all is as for the tokenizer of C05 and C114 (C174_plain)."),
    "C175": ("partial", "Proved in full for repeated variables (C175_last_wins), for the delimiters as a target and for the text as the last one (C175_targets_partial, C175_text), and for deque and list (C175_deque). False otherwise, with the exact extent: a text written before another conversion is tried makes the call undefined (C175_targets_partial, C175_text), and a vector must have room, without growing, for all fields but the last (C175_vector_partial). A string changed or moved is taken to lose the addresses of its characters, as the standard allows; the sequence overload is modelled for compressed delimiters, the default."),
    "C176": ("proved", "The sink of C102 with the binary64 arithmetic of C140, numbers with a point. Numbers without a point are covered by C102 (undefined behaviour). That the number stored need not be the nearest double is proved as C176_not_nearest and part of the statement."),
    "C177": ("proved", "The timer of C117, IEEE double arithmetic of C140. The Windows branch is not modelled."),
    "C178": ("partial", "Proved except for uniform_real_rng, whose pregen argument has no effect (C178_pregen_ignored). The engine and the distributions are parameters; Boost's are not modelled."),
    "C179": ("proved", "Requests are numbered and any of them may be refused; the growth policy is a parameter. The strong guarantee of each single operation of std::string is assumed, as in the standard. Input strings are separate objects (sharing is C164, C165). The failing case of replicate (size beyond 64 bits) is C179_replicate_overflow and part of the statement."),
    "C180": ("partial", "Proved for types in which no element of a container is added to (Elems) and no element is written as nothing (Solid): C180_success_partial, C180_any_answer_partial; blocks: C180_block. False in general: C180_quadratic gives, for all k and m, a buffer of 4+k(4+m) bytes that takes m k(k+1)/2 bytes. Not counted: nodes and spare capacity of containers, temporaries."),
    "C181": ("partial", "Proved for double probabilities from 2^-54 + 2^-99 to 1 - 2^-31 and pow/log accurate to the fraction 2^-50 (C181_parameters_partial; the error is below a millionth up to 1 - 2^-12, C181_error_small; C181_probability). False below: for every double from 2^-1000 to 2^-54 - 2^-103 the call is undefined, since 1.0 - p is 1.0 and minus infinity is converted to an integer (C181_tiny_probability). False near one: from 1 - 2^-45 on the requirement comes out as no bits at all (C181_near_one, for a pow that returns the nearest number there). Missing: probabilities between 1 - 2^-31 and 1 - 2^-45, and the few doubles next to 2^-54, where it depends on the library."),
    "C182": ("partial", "False in general (C182_lost): containers of anything but a registered type, and every container within a pair (its overload is declared behind the one for pairs), are Unknown. Proved that the names of types built of registered ones are different for different types (C182_distinct_partial), that in general names are equal precisely when the types agree after replacing what is not registered (C182_exact), that there is always a name, and what it is for pairs, arrays and containers. Types of namespace strtk itself, whose namespace would be searched at instantiation, are left out."),
    "C183": ("proved", "Every operation rounded to nearest in the IEEE double format of Real/Ieee.lean; exp and pow are parameters with an assumed accuracy (and, for C183_monotone, monotonicity); good_exists shows that the assumptions can be met. The count of elements is an unsigned int in the code, hence below 2^32; that it starts anew after 2^32 insertions is not part of this property."),
    "C184": ("partial", "The error bound is proved for exponents from -308 to 308, at most 308 digits behind the point and less than 10^1000 before it. Outside it fails: C184_large_exponent, C184_small_exponent, C184_exponent_over_read, C184_long_fraction and C184_over_read; C184_table shows that the accuracy is that of double even inside."),
    "C185": ("partial", "Proved from 9.9999999995e-309 to 9.9999999995e308. The other finite numbers of the type come back infinite (C185_large), as zero (C185_small), or not at all: the text makes the conversion read outside of its table (C185_tiny)."),
    "C186": ("proved", "Row range: C186_remove_rows; column: C186_remove_column, for any noted width (after rows were removed it may be larger than the table; then nothing is removed).  The class itself calls neither function."),
    "C187": ("proved", "C187_strict, C187_strict_memory, C187_lenient, C187_others, C187_prefix, C187_again; C187_no_throw links it to C59. Lookups and conversions are functions of the state of the world; their own loops are those of C59."),
    "C188": ("partial", "The sums are right if no partial sum leaves int (C188_sums_partial); otherwise the addition overflows (C188_sum_overflows), as it does in the first round of the program as shipped (C188_shipped_overflows: the first 381 texts of its list suffice; it makes 400000 rounds); the list also has -2147483648, whose conversion overflows (C188_least). The error of the string to double test: zero for integers of at most 2^53 in all (C188_error_zero), otherwise bounded (C188_error_bound); integers that add up to one more leave an error of one (C188_error_left), and the program as shipped, with all of its 1072 texts and 80000 rounds, prints a finite error below 396 (C188_shipped_error). The other claims are proved in full. The other libraries and times are not modelled."),
    "C189": ("proved", "C189_row, C189_row_new, C189_row_room, C189_column, C189_none; C189_loaded shows that the hypothesis on the order of tokens holds of every loaded grid. C189_row_half: to a string with text in it a row can be cut. C189_column_if and C189_none_if: join_column with a predicate. A predicate that throws is not part of it."),
    "C190": ("partial", "C190_delimiter_partial is exact (if and only if); C190_doubles is the text that results otherwise. C190_own_partial: with capacity for what is reserved and for the result all is well and the grid can still be used; C190_moved and C190_moved_late: with less, characters are read where they no longer are. C190_column_delimiter_partial, C190_column_own_partial and C190_column_moved say the same of join_column without a predicate; C190_column_if_delimiter_partial (if and only if), C190_column_if_own_partial and C190_column_if_moved of join_column with a predicate."),
    "C191": ("partial", "The full property is false (C191_order_lost, C191_notation; C191_many_digits, C191_many_digits_long). Proved: numbers without exponent with parts of at most 2^53 (C191_plain, for float C191_plain_float), integers of at most 2^53 with exponents up to 22 (C191_scaled, for float C191_scaled_float, for long double up to 2^64 C191_scaled_long), integers (C191_integers, strict), and all decimal texts that are 2^-43 of their sizes apart (C191_apart_partial; for long double 2^-49, C191_apart_long_partial)."),
    "C192": ("proved", "C192_all (C192_kept where no infinity comes back), C192_strict, C192_apart, C192_merged. The stream of type_to_string is specified, as in C124. Subnormal numbers are not part of the property; those up to 2^-1045 come back unchanged (C143_subnormal)."),
}
