{"id": "C01", "title": "split loses nothing", "statement": "strtk::split with the default option returns, for any non-empty input, the maximal delimiter-free pieces of the input in order: no returned token contains a delimiter, consecutive tokens are separated by exactly one delimiter character of the input, and re-inserting those delimiters rebuilds the input. An empty input yields no tokens, and the returned count equals the number of tokens written.", "quantifier": "every delimiter predicate, every input sequence of any length over any element type", "why_tests_cant": "A test fixes a handful of strings; the boundary cases (leading, trailing, adjacent delimiters, all-delimiter input) combine without bound.", "anchors": ["strtk.hpp:split", "strtk.hpp:single_delimiter_predicate"]}
{"id": "C02", "title": "split with compress_delimiters collapses runs only", "statement": "split with split_options::compress_delimiters returns exactly the tokens that the default split returns on the input in which every maximal run of delimiters has been replaced by one delimiter; a leading or trailing run still contributes one empty token.", "quantifier": "every delimiter predicate and every non-empty input", "why_tests_cant": "The interaction of a run with the beginning or the end of the input is unbounded in run length and position.", "anchors": ["strtk.hpp:split_compress_delimiters", "strtk.hpp:split", "strtk.hpp:split_options"]}
{"id": "C03", "title": "split token ranges stay inside the input and in order", "statement": "Every (first,second) pair produced by split satisfies begin <= first <= second <= end, pairs are disjoint and in increasing order, and split never reads at or past end, whatever options are combined.", "quantifier": "every delimiter predicate, every input, all eight combinations of the split option bits", "why_tests_cant": "Absence of an out-of-range read for all inputs is not observable by sampling.", "anchors": ["strtk.hpp:split", "strtk.hpp:split_compress_delimiters", "strtk.hpp:split_options"]}
{"id": "C04", "title": "split delimiter-inclusion options tile the input", "statement": "With include_1st_delimiter each token is extended by the delimiter that ended it, and with include_all_delimiters (alone) it is extended by the whole run of delimiters that ended it; with include_all_delimiters the concatenation of all returned tokens is exactly the input, and with include_1st_delimiter without compression likewise.", "quantifier": "every delimiter predicate and every input", "why_tests_cant": "Tiling is a global equation over inputs of any length.", "anchors": ["strtk.hpp:split", "strtk.hpp:split_compress_delimiters", "strtk.hpp:split_options"]}
{"id": "C05", "title": "tokenizer iteration agrees with split", "statement": "Walking a tokenizer from begin() to end() visits exactly the tokens split returns for the same delimiter predicate, input and tokenize option, in the same order, terminates, and never reads past the end.", "quantifier": "every delimiter predicate and every input", "why_tests_cant": "Equality of two independently written traversals for every input needs a proof, and termination of iteration cannot be tested.", "anchors": ["strtk.hpp:tokenizer", "strtk.hpp:tokenizer_iterator", "strtk.hpp:tokenize_options", "strtk.hpp:split"]}
{"id": "C06", "title": "split_n returns a prefix of split", "statement": "split_n(delims, input, n, out) returns the first min(n, count) tokens that split returns for the same input and option.", "quantifier": "every delimiter predicate, every input, every n, default and compress options", "why_tests_cant": "Three unbounded parameters interact.", "anchors": ["strtk.hpp:split_n", "strtk.hpp:split"]}
{"id": "C07", "title": "offset splitter cuts consecutive pieces of the requested lengths", "statement": "offset_splitter with a list of positive offsets returns consecutive pieces of exactly those lengths until the input or the list is exhausted (the last one truncated at the end), and with rotation the list is reused cyclically; the pieces together are a prefix of the input.", "quantifier": "every list of offsets, rotate flag and input", "why_tests_cant": "List and input length are unbounded; rotation makes the behaviour periodic with arbitrary period.", "anchors": ["strtk.hpp:offset_splitter", "strtk.hpp:offset_predicate"]}
{"id": "C08", "title": "split_pair splits at the first delimiter", "statement": "split_pair succeeds exactly when the input contains a delimiter that is not its last character with respect to the first delimiter found, and then the two ranges are the text before the first delimiter and the non-empty text after it.", "quantifier": "every delimiter predicate and every input", "why_tests_cant": "Universally quantified over input shape.", "anchors": ["strtk.hpp:split_pair"]}
{"id": "C09", "title": "remove_inplace is a stable filter", "statement": "remove_inplace(pred, s) leaves in s exactly the elements for which pred is false, in their original order, and (iterator form) returns the number of elements removed.", "quantifier": "every predicate and every sequence", "why_tests_cant": "In-place two-pointer compaction must be right for every interleaving of kept and removed elements.", "anchors": ["strtk.hpp:remove_inplace"]}
{"id": "C10", "title": "remove_consecutives_inplace keeps the head of each run", "statement": "remove_consecutives_inplace(pred, s) replaces each maximal run of elements satisfying pred by its first element and keeps everything else; the predicate-free form keeps one element of each maximal run of equal elements.", "quantifier": "every predicate and every sequence", "why_tests_cant": "Run structure is unbounded.", "anchors": ["strtk.hpp:remove_consecutives_inplace"]}
{"id": "C11", "title": "remove_duplicates keeps first occurrences", "statement": "remove_duplicates(str) returns each distinct character once, in order of first occurrence, for every string of characters, without accessing memory outside its table.", "quantifier": "every character string, including bytes 0x80..0xFF", "why_tests_cant": "The lookup table is indexed by every possible character value; a sample of ASCII strings never leaves the table.", "anchors": ["strtk.hpp:remove_duplicates", "strtk.hpp:remove_duplicates_inplace"]}
{"id": "C12", "title": "trimming removes exactly the leading/trailing characters", "statement": "remove_leading(pred,s) deletes the longest prefix of characters satisfying pred, remove_trailing the longest such suffix, and remove_leading_trailing both.", "quantifier": "every predicate and every string", "why_tests_cant": "Includes the all-matching and empty strings and every length in between.", "anchors": ["strtk.hpp:remove_leading", "strtk.hpp:remove_trailing", "strtk.hpp:remove_leading_trailing"]}
{"id": "C13", "title": "replace_pattern replaces every non-overlapping occurrence", "statement": "replace_pattern(s,p,r,n) sets n to s with the leftmost non-overlapping occurrences of p replaced by r (n = s when p is empty or p = r); the size precomputation never under- or over-allocates the result.", "quantifier": "all strings s, p, r including p longer than s and r shorter or longer than p", "why_tests_cant": "Occurrence sets and size arithmetic are unbounded, including the wrap-around of the signed size difference.", "anchors": ["strtk.hpp:replace_pattern"]}
{"id": "C14", "title": "replace is a pointwise substitution", "statement": "replace(c1,c2,s) changes exactly the elements equal to c1 into c2 and leaves every other position unchanged; copy_if, copy_while and copy_until output the elements satisfying the predicate, the longest satisfying prefix and the longest non-satisfying prefix.", "quantifier": "every sequence and predicate", "why_tests_cant": "Universally quantified.", "anchors": ["strtk.hpp:replace", "strtk.hpp:copy_if", "strtk.hpp:copy_while", "strtk.hpp:copy_until"]}
{"id": "C15", "title": "match decides the wildcard relation", "statement": "match(pattern,s) with '*' (zero or more) and '?' (zero or one) returns true exactly when s can be obtained from pattern by replacing every '*' by some string and every '?' by at most one character, and it never reads outside either string.", "quantifier": "every pattern and every string", "why_tests_cant": "The pattern language is infinite; backtracking failures appear only on particular pattern/text combinations.", "anchors": ["strtk.hpp:match_impl", "strtk.hpp:match", "strtk.hpp:imatch"]}
{"id": "C16", "title": "find_all reports every leftmost non-overlapping occurrence", "statement": "find_all(pattern,range,out) outputs precisely the leftmost non-overlapping occurrences of a non-empty pattern, in order, and terminates.", "quantifier": "every non-empty pattern and every text", "why_tests_cant": "Unbounded texts and self-overlapping patterns.", "anchors": ["strtk.hpp:find_all", "strtk.hpp:ifind_all"]}
{"id": "C17", "title": "begins_with / ends_with decide prefix and suffix", "statement": "begins_with(p,s) holds exactly when p is a prefix of s, ends_with(p,s) exactly when p is a suffix of s, index_of returns the first occurrence position or npos.", "quantifier": "all strings, including empty ones and patterns longer than the text", "why_tests_cant": "All lengths, no reads out of range.", "anchors": ["strtk.hpp:begins_with", "strtk.hpp:ends_with", "strtk.hpp:index_of"]}
{"id": "C18", "title": "case-insensitive matching is an equivalence", "statement": "imatch(s,t) holds exactly when s and t have equal length and are equal after upper-casing every character; hence it is reflexive, symmetric and transitive, and the imatch of a string against a set succeeds exactly when some member matches.", "quantifier": "every pair (and triple) of strings", "why_tests_cant": "Equivalence laws quantify over triples of arbitrary strings.", "anchors": ["strtk.hpp:imatch", "strtk.hpp:imatch_char", "strtk.hpp:case_insensitive_compare"]}
{"id": "C19", "title": "hex encode/decode round trip", "statement": "convert_hex_to_bin(convert_bin_to_hex(b)) succeeds and yields b for every non-empty byte string b, encoding writes exactly 2n characters drawn from 0-9A-F, and decoding accepts lower-case digits with the same result.", "quantifier": "every byte string", "why_tests_cant": "All byte values at all positions and all lengths.", "anchors": ["strtk.hpp:convert_bin_to_hex", "strtk.hpp:convert_hex_to_bin"]}
{"id": "C20", "title": "base64 encode/decode round trip", "statement": "convert_base64_to_bin(convert_bin_to_base64(b)) yields b for every non-empty byte string; the encoding has length 4*ceil(n/3), uses only the 64-character alphabet and '=' padding, and the string overload's output buffer is always large enough.", "quantifier": "every byte string of any length", "why_tests_cant": "Padding arithmetic and buffer-size formula must hold for all lengths.", "anchors": ["strtk.hpp:convert_bin_to_base64", "strtk.hpp:convert_base64_to_bin"]}
{"id": "C21", "title": "decoders reject malformed input without harm", "statement": "convert_hex_to_bin and convert_base64_to_bin never read or write outside their ranges and report failure for input that is not a valid encoding.", "quantifier": "every character string, in particular the empty one, odd lengths and characters outside the alphabet", "why_tests_cant": "Malformed inputs form an infinite set.", "anchors": ["strtk.hpp:convert_hex_to_bin", "strtk.hpp:convert_base64_to_bin"]}
{"id": "C22", "title": "case conversion", "statement": "convert_to_uppercase / convert_to_lowercase change exactly the ASCII letters of the other case, are idempotent, and convert_to_printable_chars replaces exactly the non-graphic bytes by '.' and is idempotent.", "quantifier": "every byte string", "why_tests_cant": "All 256 byte values at all positions.", "anchors": ["strtk.hpp:convert_to_uppercase", "strtk.hpp:convert_to_lowercase", "strtk.hpp:convert_to_printable_chars"]}
{"id": "C23", "title": "bitwise interleave is a bijection on bits", "statement": "twoway_bitwise_interleave interleaves the bits of two equally long byte strings (bit i of the first input at bit 2i, of the second at bit 2i+1 of each output pair), the table generator for n-way interleaving sends bit j of a byte to bit j*n, and the string overload does not write outside its output string.", "quantifier": "every pair of equally long byte strings, every byte and every supported n", "why_tests_cant": "Every bit of every byte at every position; heap overflow is not reliably visible in a test.", "anchors": ["strtk.hpp:twoway_bitwise_interleave", "strtk.hpp:create_nway_interleave_table"]}
{"id": "C24", "title": "high_bit_count is the population count", "statement": "high_bit_count returns the number of one bits of its argument (8, 16, 32, 64-bit and byte ranges) and hamming_distance of equally long byte ranges is the number of differing bits: symmetric, zero only for equal ranges and satisfying the triangle inequality.", "quantifier": "every value of each width, every pair of byte strings", "why_tests_cant": "2^64 values; metric laws quantify over triples of strings.", "anchors": ["strtk.hpp:high_bit_count", "strtk.hpp:hamming_distance"]}
{"id": "C25", "title": "hamming_distance_elementwise counts differing positions", "statement": "hamming_distance_elementwise returns the number of positions at which two equally long ranges differ, and terminates.", "quantifier": "every pair of ranges", "why_tests_cant": "Non-termination cannot be concluded from a test.", "anchors": ["strtk.hpp:hamming_distance_elementwise"]}
{"id": "C26", "title": "bit_state / set_bit_high / set_bit_low obey array laws", "statement": "After set_bit_high(i) bit i reads as set, after set_bit_low(i) as clear, and every other bit of the bitmap is unchanged; only the byte containing bit i is touched.", "quantifier": "every bitmap and every pair of indexes inside it", "why_tests_cant": "Frame conditions range over all other indexes.", "anchors": ["strtk.hpp:bit_state", "strtk.hpp:set_bit_high", "strtk.hpp:set_bit_low"]}
{"id": "C27", "title": "bitwise_transform combines byte strings pointwise", "statement": "bitwise_transform(op,a,b,out) writes a[i] op b[i] at every i; in particular applying xor twice with the same key restores the data.", "quantifier": "every pair of equally long byte ranges, every operation", "why_tests_cant": "All lengths and byte values.", "anchors": ["strtk.hpp:bitwise_transform"]}
{"id": "C28", "title": "integer to text to integer round trip", "statement": "string_to_type_converter(type_to_string(v)) succeeds and returns v, and type_to_string(v) is the canonical decimal numeral (no leading zero, '-' only for negative values), for every integer type the library registers (short, int, long, long long and unsigned versions).", "quantifier": "every value of every registered integer type on an LP64 platform", "why_tests_cant": "2^64 values; table-driven three-digit conversion and asymmetric negative range.", "anchors": ["strtk.hpp:type_to_string_converter_impl", "strtk.hpp:string_to_type_converter_impl", "strtk.hpp:numeric"]}
{"id": "C29", "title": "integer parsing accepts exactly the in-range decimal numerals", "statement": "string_to_type_converter for an integer type T succeeds exactly on an optional sign ('+' only for unsigned) followed by decimal digits whose value is representable in T, and then stores that value; otherwise it fails and leaves the target unchanged. Overflow is never silently wrapped.", "quantifier": "every character string and every registered integer type", "why_tests_cant": "The accepted language and the overflow boundary are infinite sets of strings (any number of leading zeros).", "anchors": ["strtk.hpp:string_to_type_converter_impl", "strtk.hpp:numeric"]}
{"id": "C30", "title": "floating point parsing accepts a fixed grammar and never reads out of range", "statement": "string_to_type_converter for real types accepts only sign, digits, fraction, exponent, suffix and inf/nan forms, and no accepted or rejected text makes it read outside the text or outside its power-of-ten table.", "quantifier": "every character string", "why_tests_cant": "Arbitrarily long fractions and exponents.", "anchors": ["strtk.hpp:string_to_type_converter_impl", "strtk.hpp:pow10", "strtk.hpp:parse_inf", "strtk.hpp:parse_nan"]}
{"id": "C31", "title": "fast numeric conversion computes the decimal value", "statement": "fast::numeric_convert with digit_check returns true and the decimal value for digit strings of length 1..19 and false if any character is not a digit; fast::signed_numeric_convert additionally handles one sign and leading zeros.", "quantifier": "every character string up to the supported length and every integral target type", "why_tests_cant": "10^19 digit strings; template-unrolled code per length.", "anchors": ["strtk.hpp:numeric_convert", "strtk.hpp:all_digits_check", "strtk.hpp:signed_numeric_convert"]}
{"id": "C32", "title": "hex_to_number_sink stores the hexadecimal value", "statement": "Assigning a hexadecimal numeral (with optional 0x prefix) of at most 2*sizeof(T) digits to hex_to_number_sink<T> stores its numeric value and reports valid; anything else reports invalid.", "quantifier": "every string, every integer width, little-endian host", "why_tests_cant": "Digit-count and width combinations are unbounded.", "anchors": ["strtk.hpp:hex_to_number_sink"]}
{"id": "C33", "title": "multi-value parse succeeds exactly when every field converts", "statement": "parse(data, delims, t1..tn) returns true exactly when the compress-split of data has at least n tokens and the first n tokens convert to their targets; on success every target holds the value of its token.", "quantifier": "every input, delimiter set and list of targets", "why_tests_cant": "Number and content of fields unbounded.", "anchors": ["strtk.hpp:parse", "strtk.hpp:split_n", "strtk.hpp:string_to_type_converter"]}
{"id": "C34", "title": "container parse appends exactly the convertible tokens", "statement": "parse(data, delims, sequence) appends to the sequence the values of exactly those tokens of the split that convert, in order, and returns the number of tokens; parse_n considers only the first n tokens and returns the number of appended elements.", "quantifier": "every input, delimiter set, option and converter", "why_tests_cant": "Unbounded inputs.", "anchors": ["strtk.hpp:parse_impl", "strtk.hpp:parse_n", "strtk.hpp:range_to_type_back_inserter"]}
{"id": "C35", "title": "split undoes join", "statement": "For any list of strings none of which contains the delimiter character, splitting the join of a non-empty list on that character returns the list, and join(split(s)) = s for any non-empty s.", "quantifier": "every list of strings and every delimiter", "why_tests_cant": "Universally quantified round trip.", "anchors": ["strtk.hpp:join", "strtk.hpp:split"]}
{"id": "C36", "title": "join_if joins the selected elements", "statement": "join_if(output,delimiter,pred,range) appends exactly the elements satisfying pred separated by the delimiter, i.e. it equals join over the filtered range.", "quantifier": "every predicate and range", "why_tests_cant": "Position of selected elements arbitrary.", "anchors": ["strtk.hpp:join_if", "strtk.hpp:join"]}
{"id": "C37", "title": "construct then parse returns the values", "statement": "Parsing what construct(output,delimiter,t1..tn) wrote yields the original values when their texts are non-empty and contain no delimiter.", "quantifier": "every tuple of values", "why_tests_cant": "All values of all types.", "anchors": ["strtk.hpp:construct", "strtk.hpp:parse"]}
{"id": "C38", "title": "replicate, bracketize and inserter build the expected text", "statement": "replicate(n,s) is s repeated n times, replicate_inplace(n,s) is s repeated n+1 times, bracketize surrounds each element, and inserter with interval_inserter(k,t) inserts t after every k-th element and returns the number of elements written.", "quantifier": "every n, k, string and range", "why_tests_cant": "Unbounded repetition.", "anchors": ["strtk.hpp:replicate", "strtk.hpp:replicate_inplace", "strtk.hpp:bracketize", "strtk.hpp:inserter", "strtk.hpp:interval_inserter"]}
{"id": "C39", "title": "cut extracts the column range", "statement": "cut(r0,r1,...) outputs for every string of length at least r0 its characters at positions r0..r1-1 (clipped to the string), skips shorter strings and leaves them unchanged in cut_inplace.", "quantifier": "every r0, r1 and list of strings", "why_tests_cant": "Range arithmetic on unsigned sizes, including r1 < r0.", "anchors": ["strtk.hpp:cut", "strtk.hpp:cut_inplace"]}
{"id": "C40", "title": "translation_table maps characters through the table", "statement": "translate(translation_table(in,out), s) replaces each character that occurs in `in` by the corresponding character of `out` (last occurrence wins) and leaves others unchanged, for every character.", "quantifier": "every pair of equally long tables and every string, including bytes 0x80..0xFF", "why_tests_cant": "Character values beyond ASCII index outside the table.", "anchors": ["strtk.hpp:translation_table", "strtk.hpp:translate"]}
{"id": "C41", "title": "n_choose_k computes binomial coefficients whatever was computed before", "statement": "n_choose_k(n,k) returns the binomial coefficient modulo 2^64 for every n and k regardless of which calls were made before, and never indexes outside its memo table.", "quantifier": "every n, k and every history of earlier calls sharing the static memo table", "why_tests_cant": "The memo table is shared mutable state: the claim quantifies over call histories.", "anchors": ["strtk.hpp:n_choose_k", "strtk.hpp:n_choose_k_impl"]}
{"id": "C42", "title": "nth_permutation_sequence enumerates all permutations in order", "statement": "For n < k!, nth_permutation_sequence(n,k) returns the n-th permutation of 0..k-1 in lexicographic order; distinct n give distinct permutations.", "quantifier": "every k >= 1 and every n < k!", "why_tests_cant": "k! grows without bound.", "anchors": ["strtk.hpp:nth_permutation_sequence"]}
{"id": "C43", "title": "nth_combination_sequence unranks combinations", "statement": "For 2 <= k <= r and n < C(r,k), nth_combination_sequence(n,r,k) yields the n-th k-subset of 0..r-1 in lexicographic order, followed (complete_index) by the remaining indexes in increasing order.", "quantifier": "every r, k, n in range", "why_tests_cant": "Unbounded ranges, loop termination depends on n < C(r,k).", "anchors": ["strtk.hpp:nth_combination_sequence", "strtk.hpp:n_choose_k"]}
{"id": "C44", "title": "next_combination steps to the lexicographically next combination", "statement": "On a range whose first k elements and remaining elements are both sorted, next_combination rearranges the range (a permutation) so that the first k elements are the lexicographically next k-combination and returns true, or restores the first combination and returns false when there is none.", "quantifier": "every range of distinct ordered elements and every split point k", "why_tests_cant": "Every state of the enumeration.", "anchors": ["strtk.hpp:next_combination", "strtk.hpp:combination_iterator"]}
{"id": "C45", "title": "for_each_combination visits each combination exactly once", "statement": "for_each_combination(begin,end,k,f) calls f once for each k-element sub-multiset position set, C(n,k) calls in all, and leaves the range as it found it.", "quantifier": "every range length n and k <= n", "why_tests_cant": "C(n,k) calls, recursion of arbitrary depth.", "anchors": ["strtk.hpp:for_each_combination", "strtk.hpp:combine_discontinuous", "strtk.hpp:rotate_discontinuous"]}
{"id": "C46", "title": "byte-order conversion is an involution", "statement": "details::convert reverses the bytes of 16, 32 and 64-bit integers, so converting twice is the identity and native_to_be followed by be_to_native returns the value written.", "quantifier": "every value of each width", "why_tests_cant": "2^64 values.", "anchors": ["strtk.hpp:convert", "strtk.hpp:convert_to_be", "strtk.hpp:native_to_be", "strtk.hpp:be_to_native"]}
{"id": "C47", "title": "binary writer then reader returns what was written", "statement": "For any sequence of writes that all succeed, reading back from the same buffer with the same types yields the same values in order and consumes exactly the bytes written.", "quantifier": "every sequence of PODs, strings, arrays, vectors and sequences, every buffer size", "why_tests_cant": "Arbitrary interleavings of types and lengths.", "anchors": ["strtk.hpp:writer", "strtk.hpp:reader"]}
{"id": "C48", "title": "binary reader and writer never leave the buffer", "statement": "After any history of read/write/seek/rewind/mark/reset calls with any arguments the position stays within [0,buffer_length], position_ptr = buffer + position, and no byte outside the buffer is read or written; a call that does not fit returns false.", "quantifier": "every history of calls", "why_tests_cant": "Quantifies over operation histories.", "anchors": ["strtk.hpp:reader", "strtk.hpp:writer", "strtk.hpp:marker"]}
{"id": "C49", "title": "padded field writing", "statement": "writer(value,size,padding_mode) writes exactly size bytes: the text of the value padded on the chosen side, or fails without writing when the text is longer than size or the buffer is full.", "quantifier": "every text, size and padding mode", "why_tests_cant": "All sizes.", "anchors": ["strtk.hpp:writer", "strtk.hpp:padding_mode"]}
{"id": "C50", "title": "text alignment pads to the width", "statement": "center, left_align and right_align return a string of length max(width, size) that contains the text at the expected place and pad characters elsewhere; remaining_string returns the suffix.", "quantifier": "every width, pad character and string", "why_tests_cant": "Odd/even padding for all widths.", "anchors": ["strtk.hpp:center", "strtk.hpp:left_align", "strtk.hpp:right_align", "strtk.hpp:remaining_string"]}
{"id": "C51", "title": "text::insert and text::remove edit one character", "statement": "text::remove(s,i) deletes the i-th character (no effect when out of range), text::insert(s,i,c) inserts c before position i and text::swap exchanges two positions, all without undefined behaviour.", "quantifier": "every string, index and character", "why_tests_cant": "memcpy on overlapping ranges is undefined for most inputs yet usually passes tests.", "anchors": ["strtk.hpp:text::remove_inplace", "strtk.hpp:text::insert_inplace", "strtk.hpp:text::swap_inplace"]}
{"id": "C52", "title": "consecutive-run search", "statement": "find_exactly_n_consecutive_values returns the first window of n consecutive elements satisfying the predicate, find_atleast_n the first maximal run of at least n, match_* decide whether the range starts with such a run, and split_on_consecutive_n returns at most n matches.", "quantifier": "every n, predicate and range", "why_tests_cant": "Run positions and lengths unbounded.", "anchors": ["strtk.hpp:find_exactly_n_consecutive_values", "strtk.hpp:find_atleast_n_consecutive_values", "strtk.hpp:match_atleast_n_consecutive_values", "strtk.hpp:split_on_consecutive_n"]}
{"id": "C53", "title": "prefix trie is a map from keys to values", "statement": "After any sequence of insertions, trie.find(k) returns the most recently inserted value for k and fails for keys never inserted; find_prefix(k) holds exactly when some inserted key starts with k.", "quantifier": "every history of insertions and every key", "why_tests_cant": "Histories unbounded; wrong sharing shows up only for particular key pairs.", "anchors": ["strtk.hpp:trie::prefix", "strtk.hpp:insert", "strtk.hpp:find", "strtk.hpp:find_prefix"]}
{"id": "C54", "title": "bloom filter has no false negatives", "statement": "After any history of insert, clear, |= and &= on filters with equal parameters, contains(k) is true for every key inserted into this filter since the last clear (or merged by |=, or present in both operands of &=); every bit access stays inside the table.", "quantifier": "every history, every key, every parameter set with a table size that is a positive multiple of 8", "why_tests_cant": "Quantifies over histories, keys and hash values.", "anchors": ["strtk.hpp:bloom::filter", "strtk.hpp:insert", "strtk.hpp:contains", "strtk.hpp:hash_ap", "strtk.hpp:compute_indices"]}
{"id": "C55", "title": "compressible bloom filter keeps its members and stays in bounds", "statement": "compress(percentage) never loses inserted keys and never writes outside the new table for any percentage in (0,100).", "quantifier": "every percentage, table size and history", "why_tests_cant": "Memory errors depend on the ratio of sizes.", "anchors": ["strtk.hpp:compressible_filter", "strtk.hpp:compress"]}
{"id": "C56", "title": "bloom filter file round trip", "statement": "read_from_file after write_to_file restores an equal filter.", "quantifier": "every filter state", "why_tests_cant": "All table contents and salt counts; the buffer size estimate must always suffice.", "anchors": ["strtk.hpp:write_to_file", "strtk.hpp:read_from_file"]}
{"id": "C57", "title": "hash depends on every byte", "statement": "hash(data,length,seed) is determined by the bytes given and takes every byte into account, so that changing one byte can change the result, and hashing in one call equals folding the byte mixer over the data.", "quantifier": "every byte string and seed", "why_tests_cant": "Which bytes are consumed depends on the binary expansion of the length.", "anchors": ["strtk.hpp:hash", "strtk.hpp:compute_block"]}
{"id": "C58", "title": "memcmp_n equals byte-wise comparison", "statement": "memcmp_n<N>(a,b) holds exactly when the first N bytes are equal, for every N.", "quantifier": "every N and all byte arrays", "why_tests_cant": "Template recursion over all N.", "anchors": ["strtk.hpp:memcmp_n", "strtk.hpp:memcmp_n_impl"]}
{"id": "C59", "title": "key/value parser delivers each value to its key", "statement": "Parsing a block of key=value pairs assigns every registered key the last value given for it and fails (or counts a failure) for malformed pairs, unknown keys and unconvertible values; keys that do not occur are untouched.", "quantifier": "every input text, registration set and option", "why_tests_cant": "Unbounded inputs and key sets.", "anchors": ["strtk.hpp:keyvalue::parser", "strtk.hpp:uintkey_map", "strtk.hpp:key_map"]}
{"id": "C60", "title": "token grid loads exactly the non-empty rows", "statement": "After load, row_count() is the number of non-empty rows of the text, row i column j is token j of the i-th non-empty row, and min/max column counts are the least and greatest row widths.", "quantifier": "every text and delimiter sets", "why_tests_cant": "Unbounded texts.", "anchors": ["strtk.hpp:token_grid::load", "strtk.hpp:row_processor", "strtk.hpp:update_minmax_columns"]}
{"id": "C61", "title": "token grid row removal keeps the other rows", "statement": "remove_row(i) and remove_row_if(pred) delete exactly the selected rows and leave the content of all other rows unchanged, for any history of removals.", "quantifier": "every grid and every history of removals", "why_tests_cant": "Index renumbering errors surface only after particular histories.", "anchors": ["strtk.hpp:token_grid::remove_row", "strtk.hpp:remove_row_if", "strtk.hpp:index_remover"]}
{"id": "C62", "title": "token grid token removal keeps the other tokens", "statement": "remove_token_if(range,pred) deletes exactly the tokens of the selected rows that satisfy the predicate, drops rows that become empty and keeps everything else.", "quantifier": "every grid, row range and predicate", "why_tests_cant": "Renumbering of token indexes across rows.", "anchors": ["strtk.hpp:token_grid::remove_token_if", "strtk.hpp:index_remover"]}
{"id": "C63", "title": "token grid enforcement touches only the selected rows", "statement": "enforce_column_count(range,n) removes exactly the rows of the given range whose width differs from n.", "quantifier": "every grid, range and n", "why_tests_cant": "Range arguments are rarely varied in tests.", "anchors": ["strtk.hpp:enforce_column_count", "strtk.hpp:enforce_min_max_column_count"]}
{"id": "C64", "title": "token grid column extraction", "statement": "extract_column(range,c,out) outputs the c-th token of every row of the range that has one, in row order.", "quantifier": "every grid, range and column", "why_tests_cant": "Ragged grids of every shape.", "anchors": ["strtk.hpp:extract_column", "strtk.hpp:extract_column_checked"]}
{"id": "C65", "title": "token grid join_row reproduces the row", "statement": "join_row(i,delim) is the concatenation of all tokens of row i separated by delim.", "quantifier": "every grid and every row index, including the last row", "why_tests_cant": "The last row is treated by different index arithmetic.", "anchors": ["strtk.hpp:join_row", "strtk.hpp:join_column"]}
{"id": "C66", "title": "sequential_partition covers the rows exactly once", "statement": "sequential_partition(range,p,f) calls f on consecutive disjoint row ranges that together are exactly the given range, split where p signals.", "quantifier": "every grid and predicate", "why_tests_cant": "Every pattern of partition points.", "anchors": ["strtk.hpp:sequential_partition"]}
{"id": "C67", "title": "file copy, concatenation and comparison", "statement": "copy_file makes the destination's contents equal to the source's, concatenate writes the concatenation, files_identical decides equality of contents, and load_file after write_file returns the data, for every file size (including sizes around multiples of the block size); other files are untouched, and a failing copy leaves the destination as it was.", "quantifier": "every file-system state, every pair of names (including equal names), every size", "why_tests_cant": "Block-boundary cases of unbounded sizes and aliasing of names.", "anchors": ["strtk.hpp:copy_file", "strtk.hpp:concatenate", "strtk.hpp:files_identical", "strtk.hpp:load_file", "strtk.hpp:write_file"]}
{"id": "C68", "title": "line callbacks stop when told", "statement": "for_each_line visits all lines in order, for_each_line_n at most n lines, and the conditional form stops at the first line for which the callback returns false; the returned count is the number of lines processed.", "quantifier": "every stream content and callback", "why_tests_cant": "Unbounded streams, n = 0 included.", "anchors": ["strtk.hpp:for_each_line", "strtk.hpp:for_each_line_n", "strtk.hpp:for_each_line_conditional"]}
{"id": "C69", "title": "string_condition implements its named relation", "statement": "string_condition(equal|notequal|begins_with|ends_with|within|notwithin, s) applied to t holds exactly when the named relation between s and t holds.", "quantifier": "every pair of strings and every condition type", "why_tests_cant": "All lengths.", "anchors": ["strtk.hpp:string_condition"]}
{"id": "C70", "title": "expect / inrange / fill_array guards", "statement": "expect(s) accepts exactly the token s, iexpect its case variants, inrange(t,lo,hi) accepts exactly the tokens converting into [lo,hi] and leaves t unchanged otherwise, fill_array accepts exactly tokens of the array's size.", "quantifier": "every token, bound and type", "why_tests_cant": "All tokens.", "anchors": ["strtk.hpp:expect_impl", "strtk.hpp:iexpect_impl", "strtk.hpp:inrange_impl", "strtk.hpp:fill_array_impl"]}
{"id": "C71", "title": "lexicographically_canonicalize computes a canonical rotation", "statement": "lexicographically_canonicalize replaces a string by its lexicographically least rotation, so two strings are rotations of each other exactly when their canonical forms are equal.", "quantifier": "every string", "why_tests_cant": "All strings and all rotations.", "anchors": ["strtk.hpp:lexicographically_canonicalize"]}
{"id": "C72", "title": "first_non_repeated_char finds the first unique character", "statement": "first_non_repeated_char returns the position of the first character that occurs exactly once, or npos.", "quantifier": "every string including bytes 0x80..0xFF", "why_tests_cant": "Table indexed by every character value.", "anchors": ["strtk.hpp:first_non_repeated_char"]}
{"id": "C73", "title": "column selection picks the requested columns", "statement": "parse_columns with strictly increasing column indexes delivers to its i-th target the token in the i-th requested column, and reports failure if a requested column is missing or does not convert. A column_selector object fed with the tokens of a row delivers in the same way.", "quantifier": "every row and every increasing list of columns", "why_tests_cant": "Unbounded rows.", "anchors": ["strtk.hpp:column_selector_base", "strtk.hpp:parse_columns"]}
{"id": "C74", "title": "wildcard filter lets through the matching tokens", "statement": "filter_on_wildcard_match with allow_through_on_match = true forwards exactly the tokens that match the pattern, and with false exactly those that do not.", "quantifier": "every pattern, flag and token sequence", "why_tests_cant": "All patterns and tokens.", "anchors": ["strtk.hpp:filter_on_wildcard_match", "strtk.hpp:match"]}
{"id": "C75", "title": "make_string / set_array / clear_array stay inside their arrays", "statement": "set_array(dest,src,pad) copies the source and pads the rest without reading or writing outside either array, and fails when the destination is too small; clear_array and make_string likewise.", "quantifier": "all array sizes and contents", "why_tests_cant": "Template sizes range over all naturals.", "anchors": ["strtk.hpp:set_array", "strtk.hpp:clear_array", "strtk.hpp:make_string"]}
{"id": "C76", "title": "hex_to_string_sink decodes hexadecimal fields", "statement": "Assigning a field to a hex_to_string_sink stores the decoded bytes when the field has an even number of hexadecimal digits and marks the sink invalid otherwise; decoding the hexadecimal text of a string gives the string back.", "quantifier": "every field text", "why_tests_cant": "All byte strings.", "anchors": ["strtk.hpp:hex_to_string_sink"]}
{"id": "C77", "title": "base64_to_number_sink decodes within its target", "statement": "Assigning the base64 text of a number to a base64_to_number_sink stores that number, reports it valid, and never writes outside the number.", "quantifier": "every field text and every target size", "why_tests_cant": "All texts and sizes; memory safety.", "anchors": ["strtk.hpp:base64_to_number_sink"]}
{"id": "C78", "title": "truncated_int takes the integer part", "statement": "Parsing a decimal numeral through truncated_int stores the integer given by the characters before the first '.', or fails if they are not a representable integer.", "quantifier": "every field text", "why_tests_cant": "All texts.", "anchors": ["strtk.hpp:truncated_int"]}
{"id": "C79", "title": "delimiter predicates decide exactly their characters", "statement": "single_delimiter_predicate, multiple_delimiter_predicate and multiple_char_delimiter_predicate answer true exactly for the characters they were built with.", "quantifier": "every delimiter set and every character of all 256", "why_tests_cant": "Every set of characters against every character, including 0x80..0xFF.", "anchors": ["strtk.hpp:single_delimiter_predicate", "strtk.hpp:multiple_delimiter_predicate", "strtk.hpp:multiple_char_delimiter_predicate"]}
{"id": "C80", "title": "iota writes consecutive values", "statement": "iota(n, v) writes v, v+1, ..., v+n-1 (modulo the width of the type), exactly n values.", "quantifier": "every count, start value and integer width", "why_tests_cant": "Unbounded counts and widths.", "anchors": ["strtk.hpp:iota"]}
{"id": "C81", "title": "random_permutation and random_combination only rearrange", "statement": "For a generator of floating-point numbers in [0,1), random_permutation writes a permutation of the range (any permutation can come out) and random_combination writes exactly set_size elements from different positions, or returns false when there are too few.", "quantifier": "every range and every sequence of numbers the generator may return", "why_tests_cant": "All generator histories; a test sees one seed.", "anchors": ["strtk.hpp:random_permutation", "strtk.hpp:random_combination"]}
{"id": "C82", "title": "select_k_randomly and select_1_randomly select elements of the range", "statement": "select_k_randomly writes min(k,n) elements from different positions (all of them when n <= k); select_1_randomly writes one element of a non-empty range and nothing for an empty one.", "quantifier": "every range, every k and every sequence of numbers in [0,1)", "why_tests_cant": "All generator histories.", "anchors": ["strtk.hpp:select_k_randomly", "strtk.hpp:select_1_randomly"]}
{"id": "C83", "title": "generate_random_data stays within the buffer", "statement": "generate_random_data(data,length) fills exactly the length bytes of the buffer from the generator and writes nowhere else.", "quantifier": "every length and every sequence of generator words", "why_tests_cant": "All lengths; memory safety at the tail.", "anchors": ["strtk.hpp:generate_random_data"]}
{"id": "C84", "title": "character classes of text", "statement": "is_letter, is_lowercase_letter, is_uppercase_letter, is_digit, is_hex_digit and is_letter_or_digit hold for exactly the ASCII characters of that class; is_all_letters and is_all_digits hold when every character is of the class.", "quantifier": "every byte and every string", "why_tests_cant": "Strings are unbounded.", "anchors": ["strtk.hpp:is_letter", "strtk.hpp:is_hex_digit", "strtk.hpp:is_all_digits"]}
{"id": "C85", "title": "token grid double quotes protect column delimiters", "statement": "With double-quote support a loaded row is split at exactly the column delimiters outside double quotes, whatever the other rows contain; with trimming, tokens that begin and end with a double quote lose these two characters and all other tokens stay as they are.", "quantifier": "every text and delimiter sets", "why_tests_cant": "All texts, including unbalanced quotes and the end of the buffer.", "anchors": ["strtk.hpp:token_grid::load", "strtk.hpp:double_quotes_predicate"]}
{"id": "C86", "title": "token grid row and column sums, widths and row visits", "statement": "for_each_row(range,f) calls f with every row of the range in order and returns their number; column_width is the greatest token length of the column in the range; accumulate_row and accumulate_column add up the values of the row or column and return how many values were added, or 0 if one does not convert.", "quantifier": "every grid, row, column and range", "why_tests_cant": "All grids, also with rows of different widths.", "anchors": ["strtk.hpp:token_grid::for_each_row", "strtk.hpp:token_grid::column_width", "strtk.hpp:token_grid::accumulate_row", "strtk.hpp:token_grid::accumulate_column"]}
{"id": "C87", "title": "token grid rows parse only their own tokens", "statement": "row(i).parse(...) and parse_with_index(...) convert tokens of row i only, and report failure if the row has too few tokens; parse(range,sequence) converts exactly the tokens of the range.", "quantifier": "every grid, row and list of columns", "why_tests_cant": "Rows of any width; memory safety at the last row.", "anchors": ["strtk.hpp:token_grid::row_type::parse", "strtk.hpp:token_grid::row_type::parse_with_index"]}
{"id": "C88", "title": "plain objects written to a file stream come back", "statement": "write_pod(stream, v...) followed by read_pod(stream, v...) on the same data yields the same values and reports success (1-10 values, arrays, sequences); a read_pod that reports success delivers exactly the next bytes of the file, and one on a file that ends early reports failure.", "quantifier": "every list of values and every file contents", "why_tests_cant": "All contents and truncation points.", "anchors": ["strtk.hpp:write_pod", "strtk.hpp:read_pod"]}
{"id": "C89", "title": "plain objects written to memory come back", "statement": "write_pod(buffer, v...) followed by read_pod(buffer, v...) yields the same values, both advance the pointer by exactly the bytes used, and the bytes around them stay untouched.", "quantifier": "every list of values and every buffer", "why_tests_cant": "All sizes; memory safety at the end of the buffer.", "anchors": ["strtk.hpp:write_pod", "strtk.hpp:read_pod"]}
{"id": "C90", "title": "read_at_offset reads exactly the requested bytes", "statement": "read_at_offset(stream, offset, buffer, length) succeeds exactly when the file has length bytes from offset on and then delivers exactly these bytes.", "quantifier": "every file, offset and length", "why_tests_cant": "All offsets around the end of the file.", "anchors": ["strtk.hpp:read_at_offset"]}
{"id": "C91", "title": "text files of values round trip", "statement": "load_from_text_file appends the value of every line of the file in order and returns their number (a line that does not convert throws); write_to_text_file writes each element followed by the delimiter and returns their number; writing one element per line and loading gives the elements back when their texts hold no newline and convert back.", "quantifier": "every file and every container", "why_tests_cant": "All file contents, including missing final newline and empty lines.", "anchors": ["strtk.hpp:load_from_text_file", "strtk.hpp:write_to_text_file"]}
{"id": "C92", "title": "copies of a string_condition behave like the original", "statement": "A string_condition obtained by copying another one answers as a condition freshly constructed with the same kind and text, whatever happens to the other objects.", "quantifier": "every history of constructing, copying and destroying conditions", "why_tests_cant": "All histories of object lifetimes.", "anchors": ["strtk.hpp:string_condition"]}
{"id": "C93", "title": "trim, trim_leading, trim_trailing, as_lcase and as_ucase as parse targets", "statement": "trim(chars,t) converts the token without its leading and trailing characters of the set, trim_leading and trim_trailing strip one side; as_lcase and as_ucase store the token with its ASCII letters changed and always accept.", "quantifier": "every token and character set", "why_tests_cant": "Tokens are unbounded.", "anchors": ["strtk.hpp:trim", "strtk.hpp:trim_leading", "strtk.hpp:trim_trailing", "strtk.hpp:as_lcase", "strtk.hpp:as_ucase"]}
{"id": "C94", "title": "filter_on_match forwards by list membership", "statement": "filter_on_match(list, f, case_insensitive, allow) calls f exactly with the tokens that are in the list (allow = true) or exactly with those that are not (allow = false), and reads only the token; skip_while_matching stops at the first character that does not match.", "quantifier": "every list, token and surrounding text", "why_tests_cant": "All tokens, including prefixes of list entries.", "anchors": ["strtk.hpp:filter_on_match", "strtk.hpp:skip_while_matching"]}
{"id": "C95", "title": "min_max_of_range finds the extremes", "statement": "min_max_of_range sets its two results to a smallest and a greatest element of a non-empty range.", "quantifier": "every non-empty range over every totally ordered type", "why_tests_cant": "Unbounded ranges.", "anchors": ["strtk.hpp:min_max_of_range"]}
{"id": "C96", "title": "Handles of variables deliver to the right variable", "statement": "A util::value (or a semantic action) made from a variable forwards every parse to that variable, and a copy or an assigned handle does what the handle it was taken from does, independently of what happens to that handle later.", "quantifier": "every history of creating, copying, assigning, using and destroying handles", "why_tests_cant": "All histories of object lifetimes.", "anchors": ["strtk.hpp:util::value", "strtk.hpp:util::semantic_action"]}
{"id": "C97", "title": "attribute remembers the value, the previous value and whether it changed", "statement": "After each assignment to a util::attribute its value is the assigned one, its previous value is the one it had before, and changed() tells whether the two differ; a parse into it counts as an assignment.", "quantifier": "every history of assignments and parses", "why_tests_cant": "All histories.", "anchors": ["strtk.hpp:util::attribute"]}
{"id": "C98", "title": "make_key_list collects the keys of a map", "statement": "make_key_list appends the keys of a map to a sequence in the map's order, and adds them to a set (each once) or a multiset (with multiplicities), keeping what was there.", "quantifier": "every map and every sequence, set and multiset", "why_tests_cant": "Containers are unbounded.", "anchors": ["strtk.hpp:make_key_list"]}
{"id": "C99", "title": "make_value_list collects the values of a key", "statement": "make_value_list appends to its output all values a multimap stores under the key, in their order, and no others.", "quantifier": "every multimap, every key, every implementation of multimap::find allowed by the C++ standard", "why_tests_cant": "Containers are unbounded; implementations differ.", "anchors": ["strtk.hpp:make_value_list"]}
{"id": "C100", "title": "delete_all and delete_if delete each object once", "statement": "delete_all deletes every object of a container of pointers exactly once and empties the container; delete_if deletes exactly the objects satisfying the predicate and keeps the other pointers in order; no other object is touched. Both need each pointer to occur once and to lead to a living object (null is allowed for delete_all).", "quantifier": "every container and heap", "why_tests_cant": "All aliasing patterns.", "anchors": ["strtk.hpp:delete_all", "strtk.hpp:delete_if"]}
{"id": "C101", "title": "extract_unique puts out each element once", "statement": "extract_unique writes every element that occurs in the range exactly once, in increasing order.", "quantifier": "every range over every totally ordered type", "why_tests_cant": "Unbounded ranges.", "anchors": ["strtk.hpp:extract_unique"]}
{"id": "C102", "title": "decimal_sink reads fixed-point numbers", "statement": "decimal_sink with int_size and frac_size stores the number denoted by a text with a sign, at most int_size digits, a point and at least the digits needed, taking the first frac_size digits behind the point, and refuses other texts.", "quantifier": "every text, every int_size and frac_size", "why_tests_cant": "All texts and digit counts.", "anchors": ["strtk.hpp:decimal_sink"]}
{"id": "C103", "title": "sink_type parses into the container it was last bound to", "statement": "A sink uses the last count, the last non-empty delimiters, the last container and the last option it was given, in every order of calls; without a container it parses nothing and returns false; without a count every convertible field goes to the container; with a count of n the first n fields are used and the result is true exactly when there are n of them and all convert.", "quantifier": "every history of configuring calls, every text", "why_tests_cant": "All histories and texts.", "anchors": ["strtk.hpp:sink_type"]}
{"id": "C104", "title": "ext_string calls change the text as described", "statement": "After any history of member calls an ext_string holds the text its documentation describes: += appends, -= removes every occurrence, remove_leading and remove_trailing strip the given characters, replace substitutes, to_lowercase and to_uppercase fold ASCII letters; +, - and * give the same text as +=, -= and *=; build_string holds the concatenation of what was put into it.", "quantifier": "every text, every history of calls", "why_tests_cant": "Unbounded texts and histories.", "anchors": ["strtk.hpp:ext_string", "strtk.hpp:build_string"]}
{"id": "C105", "title": "size predicates say what their names say", "statement": "size_equal_to, size_less_than, size_greater_than, size_is_even and size_is_odd compare the number of elements of a range, sequence, set, multiset or string with the bound, for every bound of type size_t, and ranges and containers with the same elements get the same answer.", "quantifier": "every bound, every range and container", "why_tests_cant": "All 2^64 bounds and all lengths.", "anchors": ["strtk.hpp:size_equal_to", "strtk.hpp:size_less_than", "strtk.hpp:size_greater_than", "strtk.hpp:size_is_even", "strtk.hpp:size_is_odd"]}
{"id": "C106", "title": "range::adapter is a view of memory", "statement": "The size, the elements, as_string and the conversion to std::string of a range::adapter are those of the memory between its ends; assigning through it changes exactly that element of the memory.", "quantifier": "every memory, every stretch of it, every element type", "why_tests_cant": "Unbounded memory and all positions.", "anchors": ["strtk.hpp:range::adapter", "strtk.hpp:range::as_string", "strtk.hpp:range::type"]}
{"id": "C107", "title": "token_grid row ranges select rows", "statement": "grid.range(a,b) denotes the rows a up to but excluding b, and grid.range(a) the rows from a to the last; a range within the grid is accepted by every function that takes one.", "quantifier": "every grid, all pairs of rows", "why_tests_cant": "All grids and all bounds.", "anchors": ["strtk.hpp:token_grid::range", "strtk.hpp:token_grid::row_range_type"]}
{"id": "C108", "title": "token_grid owns exactly the buffers it allocates", "statement": "After any history of loads from files, loads from buffers of the caller, and clears, the grid shows the text loaded last (and nothing after clear or a failed load); destroying it frees every buffer it allocated exactly once and leaves the caller's buffers alone.", "quantifier": "every history of load and clear calls, every file and buffer, every load option", "why_tests_cant": "Unbounded histories.", "anchors": ["strtk.hpp:token_grid::load", "strtk.hpp:token_grid::clear", "strtk.hpp:token_grid::~token_grid"]}
{"id": "C109", "title": "a row of a token_grid behaves as its list of tokens", "statement": "For every row: as_string is the concatenation of its tokens, raw_length its length, range its extent in the text, is_null tells the empty tokens; parse_checked appends the values of the convertible tokens; parse_n appends the values of the first n tokens and returns how many it appended; for_each_column passes the tokens of the given columns in order.", "quantifier": "every grid, every row, every conversion, every count and column range", "why_tests_cant": "All grids and rows.", "anchors": ["strtk.hpp:token_grid::row_type", "strtk.hpp:row_type::as_string", "strtk.hpp:row_type::parse_n", "strtk.hpp:row_type::parse_checked", "strtk.hpp:row_type::for_each_column"]}
{"id": "C110", "title": "library inserters deliver every value to their container", "statement": "A value written through an inserter (range_to_type_back_inserter, range_to_type_inserter, range_to_type_push_inserter, back_inserter_with_valuetype, inserter_with_valuetype, push_inserter, counting_back_inserter) or a copy of it goes to the container it stands for, once, in order of writing; assigning one inserter to another makes it stand for the other's container and changes no container; a function object given to functional_inserter is called once per value, each call seeing the state earlier calls left.", "quantifier": "every history of copies, assignments and writes of either form, every container and conversion", "why_tests_cant": "Unbounded histories.", "anchors": ["strtk.hpp:range_to_type_back_inserter_iterator", "strtk.hpp:push_inserter_iterator", "strtk.hpp:counting_back_inserter_iterator", "strtk.hpp:functional_inserter_iterator"]}
{"id": "C111", "title": "count_consecutive_duplicates counts repeats", "statement": "count_consecutive_duplicates returns the number of elements that are equal to their predecessor.", "quantifier": "every range over every type with equality", "why_tests_cant": "Unbounded ranges.", "anchors": ["strtk.hpp:count_consecutive_duplicates"]}
{"id": "C112", "title": "scoped_restore restores the variable at the end of its scope", "statement": "When a scoped_restore goes out of scope its variable has the value it had when the guard was made, if restore() is true at that moment, whatever was done in between including further guards; otherwise the variable keeps its value.", "quantifier": "every program between construction and destruction, any nesting of guards", "why_tests_cant": "Unbounded programs and nesting.", "anchors": ["strtk.hpp:util::scoped_restore"]}
{"id": "C113", "title": "type_length is the number of digits of a type", "statement": "For every integer type T the text type_to_string gives for a value of T has at most type_length<T>() characters besides the sign, and for the greatest value exactly that many.", "quantifier": "every integer type with conversions, every value", "why_tests_cant": "Up to 2^64 values per type.", "anchors": ["strtk.hpp:type_length", "strtk.hpp:type_to_string"]}
{"id": "C114", "title": "Tokenizer objects keep tokenising their own text", "statement": "After any sequence of constructing, copying and assigning tokenizers and of assign(text), iterating over a tokenizer delivers the tokens of the text it now stands for, with the options and the delimiter predicate it was constructed with or assigned from; begin() += n points at the token with number n and remaining() is the text from that token on.", "quantifier": "every sequence of operations on tokenizers, every text, predicate and option, every n", "why_tests_cant": "A tokenizer holds a reference to its predicate and a cached first token; which of them an operation copies only shows after particular histories.", "anchors": ["strtk.hpp:std_string::tokenizer, tokenizer, tokenizer_iterator (2336-2586)"]}
{"id": "C115", "title": "Every kind of standard container receives what was parsed or loaded", "statement": "parse, parse_n, parse with a trailing container, load_from_text_file, parse of a grid row, read_pod and util::push_back put the same values into a set, multiset, queue, stack or priority queue as into a sequence: what the program then takes out is, for a sequence and a queue, the old elements followed by the new ones in the order of the input, for a stack the reverse of that, for a set the distinct values in increasing order, for a multiset all of them in increasing order, for a priority queue all of them from the greatest down. parse_n returns by how much the container has grown. The values before the first one that does not convert stay in the container when the call fails or throws. util::clear leaves nothing, remove_empty_strings removes exactly the empty strings.", "quantifier": "every kind of container, every old contents, every text, file, row and range, every converter", "why_tests_cant": "The overloads are written out separately for each kind of container and only differ in how they insert; agreement must hold for every input and every old contents.", "anchors": ["strtk.hpp:parse, parse_n, details::container_adder, load_from_text_file, token_grid::row_type::parse, binary::read_pod, util::push_back, util::clear, remove_empty_strings"]}
{"id": "C116", "title": "for_each_permutation shows every arrangement once", "statement": "for_each_permutation calls the function exactly once for each distinct arrangement of the range that does not come before the given one in lexicographic order (so for every arrangement, if the range is sorted), in lexicographic order, and leaves the range sorted; the conditional version stops at the first arrangement the function refuses and returns whether there was none.", "quantifier": "every range over every totally ordered type, with repeated elements or without, every function", "why_tests_cant": "n! arrangements of every n.", "anchors": ["strtk.hpp:for_each_permutation", "strtk.hpp:for_each_permutation_conditional"]}
{"id": "C117", "title": "timer reports the time between start and stop", "statement": "After any history of start and stop calls a timer reports the microseconds between the last start and the last stop, provided the clock was not set back, and the greatest number while it runs; scoped_timer stores the time its block took, however the block ends.", "quantifier": "every history of calls, every sequence of clock readings", "why_tests_cant": "Clock readings cannot be chosen by a test; unbounded histories.", "anchors": ["strtk.hpp:util::timer", "strtk.hpp:util::timer::usec_time", "strtk.hpp:util::scoped_timer"]}
{"id": "C118", "title": "tries are independent objects that free their nodes once", "statement": "Every trie::prefix object answers find and find_prefix by what was inserted into it alone, also when it was copied from or assigned from another one; destroying it frees its nodes exactly once, and when no trie is left no node is left.", "quantifier": "every program that creates, copies, assigns, fills and destroys tries", "why_tests_cant": "Unbounded histories over any number of objects; a double deletion need not crash a test.", "anchors": ["strtk.hpp:trie::prefix", "strtk.hpp:trie::prefix::insert", "strtk.hpp:trie::prefix::~prefix"]}
{"id": "C119", "title": "combination_iterator visits every combination and then equals the end", "statement": "A combination_iterator over a range of distinct elements, moved by ++it, it++ and it += n in any mixture, shows after N steps the N-th combination of k elements in lexicographic order; it equals the end iterator exactly from the step on that follows the last combination, and then the range is sorted again. it++ returns an iterator that still shows the combination from before the step.", "quantifier": "every range of distinct elements, every k up to its length, every history of moves", "why_tests_cant": "The state is the arrangement of the user's range, shared by all copies of the iterator; histories and ranges are unbounded.", "anchors": ["strtk.hpp:combination_iterator", "strtk.hpp:next_combination"]}
{"id": "C120", "title": "bloom filter parameters meet the probability asked for", "statement": "compute_optimal_parameters() rejects unusable settings and otherwise chooses, among 1 to 999 hash functions, the number needing the fewest bits for the announced number of elements and false positive probability; the table size is that number of bits rounded to a multiple of eight, and both are moved into the limits of the settings. A filter with these parameters holding at most the announced elements has an effective_fpp() of at most the probability asked for.", "quantifier": "every settings object (limits, counts, probabilities, seeds)", "why_tests_cant": "Real-valued optimisation over all probabilities and counts; the failing settings are single points and special values.", "anchors": ["strtk.hpp:bloom::parameters::compute_optimal_parameters", "strtk.hpp:bloom::parameters::operator!", "strtk.hpp:bloom::filter::effective_fpp"]}
{"id": "C121", "title": "split_regex delivers the chosen group of every match", "statement": "split_regex writes the range of the chosen group of every match, in order, and returns how many it wrote; split_regex_n does so for the first token_count matches.", "quantifier": "every sequence of matches the regular expression engine finds, every group, every token_count", "why_tests_cant": "The number of matches is unbounded.", "anchors": ["strtk.hpp:split_regex", "strtk.hpp:split_regex_n"]}
{"id": "C122", "title": "the build macros of the real conversion change nothing but speed", "statement": "Defining strtk_use_lut (digit table) or strtk_enable_superscalar (longer unrolling) does not change whether a text converts to a real nor the value: the same arithmetic operations are carried out in the same order.", "quantifier": "every text, every combination of the two macros, every floating-point arithmetic", "why_tests_cant": "Unrolled loops differ at the length at which a text ends; the table is indexed by a signed character.", "anchors": ["strtk.hpp:string_to_type_converter_impl (real_type_tag)", "strtk.hpp:parse_digit_1", "strtk.hpp:details::digit_table", "strtk.hpp:strtk_use_lut", "strtk.hpp:strtk_enable_superscalar"]}
{"id": "C123", "title": "a bloom filter hashes short keys apart and its salts follow the seed", "statement": "The hash of a key under a salt is the documented function of its bytes, cut into blocks of eight and a rest of up to seven. Different keys of one, two or four bytes (characters, short, int) never have the same hash under any salt. Up to 128 hash functions the salts are the predefined ones mixed with the seed; beyond, random products are added in the order they come, without zeroes or repetitions, and no more are drawn than needed.", "quantifier": "every key, every salt, every number of hash functions, every seed, every sequence of random numbers", "why_tests_cant": "There are 2^64 pairs of int keys for each of 2^32 salts.", "anchors": ["strtk.hpp:bloom::filter::hash_ap", "strtk.hpp:bloom::filter::generate_unique_salt"]}
{"id": "C124", "title": "a real written as text and read back", "statement": "type_to_string of a float, double or long double followed by string_to_type returns the nearest number of ten significant decimal digits: infinities and nan come back, integers of at most ten digits come back exactly, and any double comes back with a relative error below 6e-10. A double further than 2e-14 (relative) from every number of ten digits, in particular an integer of 11 to 13 digits that is not a multiple of ten, never comes back unchanged.", "quantifier": "every real number in the range of double (1e-290 to 1e308), every integer, infinities, nan", "why_tests_cant": "There are 2^64 doubles, and the error is composed of up to 39 roundings.", "anchors": ["strtk.hpp:type_to_string", "strtk.hpp:type_to_string_converter_impl (not_supported_type_tag)", "strtk.hpp:precision", "strtk.hpp:string_to_type_converter"]}
{"id": "C125", "title": "serialised values survive a file", "statement": "What a binary writer has written can be sent to an output file stream and loaded from there into the buffer of a reader, after any other contents of the file; reading it with the same types gives the values back. Loading never leaves the reader's buffer: a length beyond it is refused, other bytes and the position stay as they were. A file shorter than the length asked for should be reported.", "quantifier": "every program of writes over types whose elements do not accumulate, every file contents, every pair of buffers", "why_tests_cant": "Programs, values and file contents are unbounded.", "anchors": ["strtk.hpp:binary::writer::operator()(std::ofstream&)", "strtk.hpp:binary::reader::operator()(std::ifstream&, length)", "strtk.hpp:binary::reader::operator()(std::ifstream&)"]}
{"id": "C126", "title": "the IPv4 parser accepts exactly the dotted addresses", "statement": "The parser of strtk_ipv4_parser.cpp accepts a text exactly if it is four non-empty decimal numbers from 0 to 255 separated by dots, with nothing behind the fourth; it then stores the four numbers as the octets, and printing the octets and parsing the result gives the same octets and the same 32-bit integer.", "quantifier": "every text, every four octets, whatever the octets were before", "why_tests_cant": "2^32 addresses and unboundedly many malformed texts.", "anchors": ["strtk_ipv4_parser.cpp: ipv4_parser", "strtk_ipv4_parser.cpp: print_octet", "strtk.hpp:split_n", "strtk.hpp:fast::numeric_convert"]}
{"id": "C127", "title": "the hex viewer shows every byte", "statement": "For input of any length the hex viewer (strtk_hexview.cpp) prints one line for each 16 bytes and one for the bytes left over: the offset in hexadecimal, filled up to 10 places with zeros (with blanks if the input is shorter than 16 bytes), the bytes in hexadecimal, padded in the last line so that the columns line up, and the bytes as characters, blanks and those that cannot be printed replaced by dots. It writes nothing outside its buffers, and different inputs give different output.", "quantifier": "every input of any length and any bytes, whatever was in the buffers before", "why_tests_cant": "Unboundedly many inputs; that nothing is lost relates all pairs of inputs.", "anchors": ["strtk_hexview.cpp: main", "strtk.hpp:convert_bin_to_hex", "strtk.hpp:convert_to_printable_chars"]}
{"id": "C128", "title": "the word frequency program counts every word", "statement": "For any text, strtk_wordfreq.cpp reports as word count the number of maximal runs of letters in the whole text (modulo 2^64), lists the words (in lower case) that occur in it exactly once each and in increasing order, and gives for each the number of its occurrences regardless of case (modulo 2^32); with fewer than 2^32 words the numbers listed add up to the word count.", "quantifier": "every text of any length over all 256 byte values, with or without a newline at the end", "why_tests_cant": "Unboundedly many texts; the composition of line reading, delimiter building, splitting, case conversion and counting has to hold for each.", "anchors": ["strtk_wordfreq.cpp: line_parser", "strtk_wordfreq.cpp: main", "strtk.hpp:for_each_line", "strtk.hpp:split", "strtk.hpp:ext_string", "strtk.hpp:convert_to_lowercase"]}
{"id": "C129", "title": "parse_line takes one line per call", "statement": "Each call of strtk::parse_line or parse_line_n on a file stream takes exactly the next line off the stream, whether or not the line can be parsed, and does with it what parse (parse_n) does with the text of the line: n calls read the first n lines, none twice and none skipped. At the end of the file and on a failed stream the call returns false (0), leaves the targets alone and the stream is failed; with an empty delimiter set the line is read, false (0) is returned and the targets are left alone.", "quantifier": "every text with any number of lines, with or without a newline at the end, every delimiter set, any number of targets with any converters, containers of any kind, every n, any number of calls", "why_tests_cant": "Histories of calls over unboundedly many texts.", "anchors": ["strtk.hpp:parse_line", "strtk.hpp:parse_line_n"]}
{"id": "C130", "title": "parse(argc, argv, ...) converts the arguments", "statement": "strtk::parse(argc, argv, sequence, break_on_fail) appends the values of argv[0] ... argv[argc - 1] in order; it stops at the first argument that does not convert and returns the number of arguments before it, or, with break_on_fail false, leaves such arguments out and returns argc. strtk::parse(argc, argv, t1, ..., tn) returns 0 and changes nothing unless argc = n, and otherwise stores the values of argv[0] ... argv[argc - 1] in t1 ... tn and returns the number converted before the first failure; nothing behind argv[argc - 1] is read.", "quantifier": "every argc, every argument vector, any converters", "why_tests_cant": "Unboundedly many argument vectors; reads of the terminating null pointer depend on all arguments converting.", "anchors": ["strtk.hpp:parse"]}
{"id": "C131", "title": "A delimiter set given as a character string is the set of its characters", "statement": "split, split_n, remove_leading, remove_trailing and remove_consecutives_inplace given their delimiters as a zero-terminated character string of any length behave as with the set of all its characters, and read no character behind the terminating zero.", "quantifier": "every delimiter string, every text", "why_tests_cant": "Unboundedly many delimiter strings; the effect appears only beyond a length no test uses.", "anchors": ["strtk.hpp:split", "strtk.hpp:split_n", "strtk.hpp:remove_leading", "strtk.hpp:remove_trailing", "strtk.hpp:remove_consecutives_inplace", "strtk.hpp:strnlength"]}
{"id": "C132", "title": "The combinations program lists every choice once, in order", "statement": "strtk_combinations k s1 ... sn with 1 <= k <= n writes one line for each way of choosing k of the n strings, C(n,k) lines, the strings of a line in sorted order separated by tabs; if the strings are distinct the lines are in increasing lexicographic order and none is repeated. With a k that is not a numeral, greater than n, or without strings it returns 1 and lists nothing.", "quantifier": "every k and every list of argument strings", "why_tests_cant": "Unboundedly many argument lists; completeness and order of an exponentially long output.", "anchors": ["strtk_combinations.cpp:main", "strtk.hpp:for_each_combination", "strtk.hpp:parse"]}
{"id": "C133", "title": "Globbing example program prints exactly the matching lines", "statement": "strtk_glober with one or more patterns, fed with text on its standard input, prints for every line, in order, one record per pattern that accepts the line, the patterns being in sorted order and a repeated pattern repeating its record.  `*` stands for any run of characters and `?` for any character.", "quantifier": "every list of patterns and every text", "why_tests_cant": "lists of patterns and texts are unbounded; matching with `*` backtracks in the specification but not in the code", "anchors": ["strtk_glober.cpp:line_glober", "strtk_glober.cpp:main", "strtk.hpp:match"]}
{"id": "C134", "title": "Random line program gives every line the same chance", "statement": "strtk_random_line writes exactly one line of the file, and each of its N lines with probability 1/N, however long the lines are; for a file that cannot be read or has no line it writes an empty line.", "quantifier": "every file and every sequence of random numbers; the probability is the volume of the set of draws", "why_tests_cant": "a probability is a statement about all sequences of draws; tests see a few of them", "anchors": ["strtk_random_line.cpp:random_line_selector", "strtk_random_line.cpp:main", "strtk.hpp:for_each_line"]}
{"id": "C135", "title": "Random selections are fair", "statement": "With independent, evenly distributed random numbers from [0,1): random_permutation gives each order of n different elements with probability 1/n!; random_combination gives each ordered choice of k with probability 1/(n(n-1)...(n-k+1)); select_1_randomly gives each element with probability 1/n; select_k_randomly gives each set of k elements with probability 1/C(n,k).", "quantifier": "every sequence of different elements, every k, every outcome; probabilities are volumes of sets of draws in the unit cube", "why_tests_cant": "uniformity is a statement about the measure of the set of all draws; statistics over samples cannot establish it", "anchors": ["strtk.hpp:random_permutation", "strtk.hpp:random_combination", "strtk.hpp:select_k_randomly", "strtk.hpp:select_1_randomly"]}
{"id": "C136", "title": "Period parser sums one field per unit, in any order", "statement": "The period parser of strtk_period_parser accepts a text exactly if it begins with four fields, each a real number directly followed by a letter D, H, M or S in either case, one field per letter in any order, with any of the delimiter characters between them; only the days may be negative.  The period is the sum of the four values in milliseconds, each cut to a whole number.  What follows the fourth letter does not matter, and fewer fields are refused.", "quantifier": "every text, every arithmetic of double", "why_tests_cant": "texts are unbounded and fields come in all orders with arbitrary numbers and separators", "anchors": ["strtk_period_parser.cpp:period_parser", "strtk.hpp:split_n", "strtk.hpp:string_to_type_converter"]}
{"id": "C137", "title": "Randomizer program shuffles the lines fairly", "statement": "strtk_randomizer writes every line of its input or file exactly once, each followed by a newline; when the lines are different, every order has the same probability.  Without random number support it writes them in their order; with more than one argument it writes nothing.", "quantifier": "every text, every sequence of random numbers; probability is the volume of the set of draws", "why_tests_cant": "fairness is a statement about the measure of all draws", "anchors": ["strtk_randomizer.cpp:main", "strtk.hpp:load_from_text_file", "strtk.hpp:random_permutation"]}
{"id": "C138", "title": "nth_combination_sequence and next_combination agree", "statement": "For distinct elements in increasing order and a choice of at least two of them (number of choices below 2^64): nth_combination_sequence(n, k, begin, end, out, complete_index = true) through an appending output iterator delivers exactly the range that n calls of next_combination(begin, begin + k, end) leave, all of which return true; without complete_index it delivers the first k elements of it. Going on with next_combination from the completed sequence shows exactly the remaining combinations, in order. Without complete_index there is nothing to go on with: the loop shows the one combination only.", "quantifier": "all ranges of distinct elements in increasing order, all k from 2 on, all n below the number of combinations, every previous state of the shared table of binomial coefficients", "why_tests_cant": "the two functions use unrelated algorithms and must agree for every n, k and range; a test compares a few small cases", "anchors": ["strtk.hpp:nth_combination_sequence", "strtk.hpp:next_combination", "strtk_nth_combination_example.cpp:nth_combination_example02", "strtk_nth_combination_example.cpp:nth_combination_example03"]}
{"id": "C139", "title": "Statistics program reports every column and row", "statement": "strtk_numstats, on its input or on the file named, writes one line per column and then one per row that contains a number: C[i] or R[i], the smallest and the greatest number, the sum, the mean and a median (an element with at most half of the others below it and more than half not above it). Cells are cut at commas and spaces, lines at newlines and carriage returns; empty cells, lines without cells and cells that are no numbers are ignored, for every text below 4 GiB. A cell read as NaN makes the run undefined (std::nth_element on unordered values). With two or more arguments it only shows the usage.", "quantifier": "all texts below 2^32 bytes, all tables of any shape, every conversion of cells to numbers and every arithmetic of double", "why_tests_cant": "tables have arbitrary ragged shapes with arbitrary non-numeric and empty cells; each column must gather exactly the cells of that index", "anchors": ["strtk_numstats.cpp:compute_stats", "strtk_numstats.cpp:main", "strtk.hpp:token_grid::remove_empty_tokens", "strtk.hpp:token_grid::extract_column_checked", "strtk.hpp:token_grid::row_type::parse_checked"]}
{"id": "C140", "title": "Conversion to double in IEEE arithmetic, with overflow and gradual underflow", "statement": "When arithmetic is IEEE 754 binary64 (53 bits, results of 2^1024 and more infinite, subnormal numbers below 2^-1022), a decimal text whose value is at most 1.797693134e308 is converted to a finite double that differs from it by at most one part in 2^43 and 2^-1074, also when the value is so small that the result is subnormal or zero. Integers up to 2^53 are exact, and with an exponent from -22 to 22 they are correctly rounded.", "quantifier": "all signs, digit strings before and behind the point, exponents and suffixes in the usual notation", "why_tests_cant": "the result depends on where each of up to six hundred roundings falls and on whether an intermediate value leaves the range although the number itself does not; a test sees a few literals", "anchors": ["strtk.hpp:string_to_real_converter", "strtk.hpp:details::pow10", "strtk.hpp:parse_digit_1", "strtk.hpp:parse_exponent"]}
{"id": "C141", "title": "Text parser program collects the words of a file", "statement": "strtk_text_parser_example01 fills its list with the words of text.txt, in order: the longest sequences of characters that are not delimiters (printable ASCII other than letters, tabulator, carriage return, newline), and prints their number; if the file cannot be opened it prints 0.", "quantifier": "all files, with any lines and any placement of delimiters", "why_tests_cant": "whether a line begins or ends with delimiters, and how long the runs are, is unbounded", "anchors": ["strtk_text_parser_example01.cpp:parse_line", "strtk_text_parser_example01.cpp:parse_text", "strtk_text_parser_example01.cpp:main"]}
{"id": "C142", "title": "Text parser program with a filter collects the interesting words", "statement": "strtk_text_parser_example02 fills its list with the words of text.txt that are not, in whatever case, one of the sixteen words of its list, in order, and prints their number.", "quantifier": "all files, with any lines, words and placement of delimiters", "why_tests_cant": "words of every length, case and content, anywhere in a line, meet a compressing tokenizer and a filter", "anchors": ["strtk_text_parser_example02.cpp:parse_line", "strtk_text_parser_example02.cpp:parse_text", "strtk.hpp:filter_on_match", "strtk.hpp:for_each_token", "strtk.hpp:tokenizer"]}
{"id": "C143", "title": "a double written as text and read back, over the whole range of double", "statement": "In binary64 arithmetic type_to_string of a double followed by string_to_type: infinities and nan come back; integers of at most ten digits come back exactly; every number from 2^-1074 to 1.7976931345e308 comes back finite, off by less than 6e-10 of itself and 2^-1074; subnormal numbers of at most 29 significant bits (multiples of 2^-1074 up to 2^-1045) come back exactly; finite numbers above 1.7976931345e308, the largest double among them, come back as infinity with their sign.", "quantifier": "every real number of magnitude 2^-1074 to 2^1024 except 1.7976931345e308 itself, which is no double; infinities, nan", "why_tests_cant": "There are 2^64 doubles; the limits are reached only by numbers at the two ends of the range.", "anchors": ["strtk.hpp:type_to_string", "strtk.hpp:string_to_real", "strtk.hpp:compute_pow10", "strtk.hpp:precision"]}
{"id": "C144", "title": "Combination iterator program lists every choice once", "statement": "strtk_combinator_example, for a list of the numbers 0 to n-1 and choices of k of them, ends and prints one line per choice, each choice exactly once and in lexicographic order: the number of the line with at least four digits, a tab, and the chosen numbers in increasing order separated by blanks.", "quantifier": "all n from 1 to 2^32 and all k up to n with at most 2^64 choices (the program fixes n = 6, k = 4)", "why_tests_cant": "the number of lines grows with the binomial coefficient; that none is missing or repeated is a statement about all positions of the iterator", "anchors": ["strtk_combinator_example.cpp:main", "strtk.hpp:combination_iterator", "strtk.hpp:text::right_align", "strtk.hpp:join", "strtk.hpp:iota"]}
{"id": "C145", "title": "N-th combination program prints the tables of its description", "statement": "strtk_nth_combination_example, for n letters and choices of k of them, prints three tables over all choices in lexicographic order, the third from the fifth choice on: the number of the line with at least four digits, the indices of the chosen letters and the letters themselves; in the second table the column computed by next_combination equals the one computed from the index.", "quantifier": "all n up to 191 and all k from 2 on with at least 5 and fewer than 2^64 choices (the program fixes n = 6, k = 4)", "why_tests_cant": "two unrelated algorithms must agree on every line of a table of arbitrary length; a test looks at one table", "anchors": ["strtk_nth_combination_example.cpp:nth_combination_example01", "strtk_nth_combination_example.cpp:nth_combination_example02", "strtk_nth_combination_example.cpp:nth_combination_example03", "strtk.hpp:nth_combination_sequence", "strtk.hpp:next_combination", "strtk.hpp:n_choose_k"]}
{"id": "C146", "title": "A text of key/value pairs is read back in any order of its pairs", "statement": "A text written as k1=v1|k2=v2|... (no separator in a key or, for the one between pairs, in a value; no empty value), with each key registered for a variable of its own, is accepted by the key/value parser exactly when there is a pair, all keys are registered and all values convert; every variable then holds its own value, the others are unchanged. Reordering the pairs changes nothing, as long as values for the same variable keep their order; the same holds for the mode that ignores errors, including the number of failures. Only after a failure does the order show in the variables.", "quantifier": "all lists of pairs, all pairs of separators, all sets of registered keys of each kind of map, all converters and contents of the variables, all reorderings", "why_tests_cant": "a sequence of n pairs has n! orders and arbitrary keys and values; a test tries a few orders of one sequence", "anchors": ["strtk.hpp:keyvalue::parser", "strtk.hpp:split_pair", "strtk.hpp:keyvalue::uintkey_map", "strtk.hpp:keyvalue::key_map", "strtk_keyvalue_example.cpp:example01", "strtk_keyvalue_example.cpp:example02"]}
{"id": "C147", "title": "Bloom filter program reports no error", "statement": "strtk_bloom_filter_example, for any sorted distinct letters and an even number k of them to choose, ends without leaving its buffer, inserts every choice in lower and in upper case, finds all of them in the filter, writes the filter to a file, reads an equal one back, finds all elements in it too and says that the filter was replicated; no element is ever reported as missing.", "quantifier": "all letter lists, all even k with fewer than 2^64 bytes of elements, all filter parameters with at most 128 hash functions and a table below 4 GiB, every sequence of random numbers", "why_tests_cant": "millions of elements pass through iterator, buffer, hash functions, table and file; one missing element among them would be an error, and a test sees one parameter set", "anchors": ["strtk_bloom_filter_example.cpp:main", "strtk.hpp:bloom::filter", "strtk.hpp:combination_iterator", "strtk.hpp:convert_to_uppercase", "strtk.hpp:n_choose_k"]}
{"id": "C148", "title": "Conversions into the caller's buffer write exactly their result", "statement": "convert_bin_to_hex, convert_hex_to_bin, convert_bin_to_base64 and convert_base64_to_bin on a pointer to an output buffer write their result to the front of it (two characters per byte, half a byte per character, four characters per group of up to three bytes, the decoded bytes), leave the rest of the buffer as it was, and return its size; they stay inside the buffer exactly if it has room for the result, and encoding followed by decoding gives the bytes back.", "quantifier": "every byte string, every text of two or more characters, every buffer", "why_tests_cant": "All input sizes against all buffer sizes; an overrun by one byte may go unnoticed in a test.", "anchors": ["strtk.hpp:convert_bin_to_hex", "strtk.hpp:convert_hex_to_bin", "strtk.hpp:convert_bin_to_base64", "strtk.hpp:convert_base64_to_bin"]}
{"id": "C149", "title": "The converter program's round trips never fail", "statement": "The converter example prints its text, the hexadecimal form, the decoded form, the base64 form and its decoded form; its round trips for every size below the size of its buffers never report a failure; its conversions and both speed tests stay inside their buffers, whatever these held before.", "quantifier": "every text, buffer size, previous contents of the buffers and number of rounds", "why_tests_cant": "Uninitialised buffers and all sizes.", "anchors": ["strtk_converters_example.cpp:example01", "strtk_converters_example.cpp:example02", "strtk_converters_example.cpp:example03", "strtk_converters_example.cpp:bin2hex_speed_test", "strtk_converters_example.cpp:bin2b64_speed_test"]}
{"id": "C150", "title": "The search trie program finds every string it inserted", "statement": "The search trie example reports every key it inserted as a prefix and with the key's own value, in the order of insertion, for keys of which no two differ in just their last character; its second list consists of all pieces of all rotations of the alphabet that stop before the end; the search through it never fails, and each of the three printed counts is the number of rounds times the number of strings.", "quantifier": "every list of keys and values, every alphabet, any number of rounds", "why_tests_cant": "Trie lookups depend on which other keys share a path; the program looks up 117242 strings.", "anchors": ["strtk_search_trie_example.cpp:trie_example00", "strtk_search_trie_example.cpp:trie_example01", "strtk_search_trie_example.cpp:create_string_list", "strtk_search_trie_example.cpp:trie_example02"]}
{"id": "C151", "title": "The key/value program reads its texts in any order of their pairs", "statement": "In strtk_keyvalue_example.cpp, if every text gives each member of the structure one value, in any order of the pairs, and the values convert, then both kinds of parser (integer keys, text keys) accept every text and both totals are the number of rounds times the sum of the values of ui1, modulo 2^32; a refused text is the one named in the message; and the second example shows for each text exactly its own values, with nothing left from earlier texts.", "quantifier": "every list of texts, every order of the pairs in each, every number of rounds, every initial contents of the members", "why_tests_cant": "There are 22! orders of the pairs, and the outcome could depend on what earlier texts left in the members.", "anchors": ["strtk_keyvalue_example.cpp:example01", "strtk_keyvalue_example.cpp:example02", "strtk.hpp:keyvalue::parser", "strtk.hpp:keyvalue::uintkey_map", "strtk.hpp:keyvalue::key_map"]}
{"id": "C152", "title": "A table written as text loads cell by cell", "statement": "Writing any table with cells separated by a column delimiter and rows ended by a row delimiter, and loading that text into a token_grid, gives back the table: the same number of rows, the same cell at each row and column and nothing outside, and the least and greatest column counts. Cells contain no delimiter and no row is an empty line; with compress_delimiters no cell is empty; with double-quote support and trimming, cells written between double quotes may contain column delimiters.", "quantifier": "every table with rows of any lengths and cells of any content, every delimiter predicate, texts shorter than 2^32", "why_tests_cant": "The number of tables is unbounded; losing or shifting a cell depends on the combination of empty cells, quotes and row lengths.", "anchors": ["strtk.hpp:token_grid::load", "strtk.hpp:token_grid::token", "strtk.hpp:token_grid::options", "strtk.hpp:token_grid::min_column_count"]}
{"id": "C153", "title": "The token grid example prints what its tables hold", "statement": "For every text in place of its own data, the token grid example prints: each column of the table as a line, with ERROR exactly if rows differ in length; for a symbol the number and the sum of the value cells of the rows with that symbol; bucket sums that add up to the sum of all values, and that are the sums of three rows each if the times are consecutive; the table without its empty cells in the chosen rows; and an aligned table in which every cell is filled up to the width of the longest cell of its column.", "quantifier": "every text shorter than 2^32 (without zero characters for the aligned table), every delimiter set, every symbol, every sequence of times", "why_tests_cant": "The program prints fixed tables; a lost, shifted or doubly counted cell depends on the shape of the table.", "anchors": ["strtk_tokengrid_example.cpp:token_grid_test07", "strtk_tokengrid_example.cpp:token_grid_test10", "strtk_tokengrid_example.cpp:token_grid_test12", "strtk_tokengrid_example.cpp:token_grid_test14", "strtk_tokengrid_example.cpp:token_grid_test16"]}
{"id": "C154", "title": "The serializer example reads back what it writes", "statement": "For every person, every way of changing it and every number of rounds in place of its own, the serializer example reads back from its buffer, or through a file, each person it wrote, and returns true exactly when all of them fit into the buffer and each compares equal to itself; a vector of numbered persons is read back into a deque whenever the writer accepts it; the totals it reports are the number of rounds times the length of what is written; a text of fewer than 256 characters is read back as pascal and as short string; and a number that is not negative is read back from a field padded with zeros exactly when its digits fit.", "quantifier": "every person with a name shorter than 2^32, every step function, every number of rounds, every buffer shorter than 2^63 bytes, every sizeof, every int that is not negative", "why_tests_cant": "The program uses one name, one buffer of 10 MB and fixed counts; whether another size just fits is not visible in it.", "anchors": ["strtk_serializer_example.cpp:person", "strtk_serializer_example.cpp:example02", "strtk_serializer_example.cpp:example03", "strtk_serializer_example.cpp:example04", "strtk_serializer_example.cpp:example05", "strtk_serializer_example.cpp:example06", "strtk_serializer_example.cpp:example07"]}
{"id": "C155", "title": "The library's own tests pass for every input of their kind", "statement": "With any text, delimiter predicate and expected result in place of the tables, the two helpers of the test program that compare split and tokenizer output accept exactly the result that lists the pieces of the text between delimiters (or runs of delimiters), so they never disagree; the split_n test passes for every non-empty set of delimiters and all data; counting tokens through filter_non_empty_range gives the number of pieces and collects the non-empty ones; the fast conversion test passes over every range of int above the least and every range of unsigned int; and the construct-and-parse test passes for any list of members whose texts are not empty and contain no bar, as long as the reals come back within the tolerance.", "quantifier": "every text and predicate; every non-empty delimiter set; every range of ints; every list of members", "why_tests_cant": "The test program checks 40 texts per table, one data block and a part of the range of int.", "anchors": ["strtk_tokenizer_test.cpp:test_tokenizer_split", "strtk_tokenizer_test.cpp:test_tokenizer_itr", "strtk_tokenizer_test.cpp:test_split_n", "strtk_tokenizer_test.cpp:test_empty_filter_itr", "strtk_tokenizer_test.cpp:test_fast_convert", "strtk_tokenizer_test.cpp:test_construct_and_parse"]}
{"id": "C156", "title": "n_choose_k may be called from several threads", "statement": "n_choose_k may be called from several threads at the same time: whatever the schedule, every call returns the binomial coefficient as it would alone, no thread accesses memory outside the table, every thread ends after a bounded number of its own steps, and, once initialize_n_choose_k has been called at the start of the program, there is no data race.", "quantifier": "every number of threads, every list of calls per thread, every schedule of their accesses to the shared table and flag", "why_tests_cant": "A race shows only under particular schedules; there are unboundedly many.", "anchors": ["strtk.hpp:n_choose_k", "strtk.hpp:initialize_n_choose_k"]}
{"id": "C157", "title": "A crash while a file is written spares every other file, and leaves the old contents or a beginning of the new", "statement": "If the program or the machine stops at any point of copy_file, concatenate (whose output is neither input), write_file or write_to_text_file, every file other than the one being written is as it was, and that file holds what it held before (or does not exist as before), or a beginning of what the call would have written. In particular the contents are never mixed from old and new. The old contents are gone as soon as the file has been opened; every beginning of the new contents can be what is left. Without a crash write_to_text_file returns the number of elements and the file holds each element's text followed by the delimiter.", "quantifier": "every crash point between two bytes reaching the file, every state of the file system, every size and every schedule on which the stream's buffer is passed on, including full disks, missing sources and destinations that cannot be opened", "why_tests_cant": "A test cannot stop the program between any two bytes of every file; the states in between depend on the buffering of the platform.", "anchors": ["strtk.hpp:fileio::copy_file, fileio::concatenate, fileio::write_file, write_to_text_file"]}
{"id": "C158", "title": "A file cut short is not taken for a complete one", "statement": "When a file written by the library is cut short at any byte (as a crash or a full disk may leave it), reading it back with the library reports failure and never delivers values that were not written: a Bloom filter's file read with read_from_file, values written by a binary writer and read by a reader on the bytes that are there, and values written one per line with write_to_text_file and loaded with load_from_text_file.", "quantifier": "every filter, every list of values of every serialisable type, every list of lines, and every place of the cut", "why_tests_cant": "Cuts can fall anywhere, inside lengths, elements or numbers; tests read back complete files or a few damaged ones.", "anchors": ["strtk.hpp:bloom_filter::write_to_file, bloom_filter::read_from_file, binary::reader, binary::writer, write_to_text_file, load_from_text_file"]}
{"id": "C159", "title": "Datetimes and events survive being written and read", "statement": "Datetimes written as YYYY-MM-DD hh:mm:ss.mmm with bars between them are read back unchanged and in order, whatever their members are, and different datetimes are written differently; an entry counts as a datetime exactly if it starts with seven numerals of unsigned ints separated by runs of the characters '-', ':', '.' and ' ', every other entry is skipped, and what the uninitialised local held before never matters; an event written as id|name|location|datetimes is read back if the id is below 2^32 and name and location are neither empty nor contain bars.", "quantifier": "every list of datetimes with any members, every input text, every event", "why_tests_cant": "A user-defined type converted inside a container inside a sink combines four conversions; the example shows twelve datetimes and one event.", "anchors": ["strtk_examples.cpp:datetime", "strtk_examples.cpp:parse_example05", "strtk_examples.cpp:event_information", "strtk_examples.cpp:parse_example06"]}
{"id": "C160", "title": "Running out of memory never corrupts a Bloom filter", "statement": "If a request for memory fails inside a call on a Bloom filter (construction, assignment, read_from_file, write_to_file, compress), the exception leaves every filter destructible: whatever the program does afterwards, no table is deleted twice or used after deletion, every other filter keeps its table, and when all filters are destroyed no memory is left over.", "quantifier": "every program of constructions, assignments, reads, writes, compressions and destructions on any number of filters, and every choice of the requests for memory that fail", "why_tests_cant": "Allocation failures cannot be provoked at every request of every history by tests; the damage shows only in a later destructor.", "anchors": ["strtk.hpp:bloom::filter::operator=, bloom::filter::read_from_file, bloom::filter::write_to_file, bloom::compressible_filter::compress, bloom::filter::~filter"]}
{"id": "C161", "title": "Running out of memory during a trie insertion", "statement": "An insertion into a prefix trie either returns having done its work, or throws and leaves the trie as it was: all keys are found and not found as before, nothing is lost of the memory the trie uses, and trying again later succeeds as if the failure had never happened.", "quantifier": "every history of insertions and every choice of the requests for memory that fail", "why_tests_cant": "Every new node takes two requests, each of which may fail at every position of every key.", "anchors": ["strtk.hpp:trie::prefix::insert, trie::prefix::node::add_node, trie::prefix::~prefix"]}
{"id": "C162", "title": "Every float survives text", "statement": "A finite float written by type_to_string and converted back by string_to_type_converter is the same float, from the least subnormal to the largest, and so are infinities and nan; different floats therefore have different texts. The text of a decimal number below 2^128 - 2^104 is converted to a float than which no other is nearer by more than twice the error of the conversion to double (v/2^43 + 2^-1074); from 2^128 on the result is infinite.", "quantifier": "every finite float; every decimal text of the usual form with at most 307 digits behind the point, exponent between -615 and 308", "why_tests_cant": "There are 2^32 floats and unboundedly many texts; the tests convert a handful and compare with a tolerance.", "anchors": ["strtk.hpp:type_to_string", "strtk.hpp:string_to_type_converter_impl (real_type_tag)", "strtk.hpp:details::real_type", "strtk.hpp:precision"]}
{"id": "C163", "title": "Expected words, ranges and trimmed targets in one parse", "statement": "A parse whose targets are expected words, values with a range, trimmed or case-changed variables and plain variables succeeds exactly when the text has enough fields and each field meets its target; then every variable holds the value of its own field. In the example: a line is recognised as a declaration exactly if its fields begin with the word var, a name, a colon, the word Integer in any case, an equals sign and an integer; a temperature and a name are stored exactly if they follow their keys and lie in their ranges.", "quantifier": "every text, every previous content of the variables, every limit", "why_tests_cant": "The texts a pattern of words and ranges must refuse cannot be enumerated.", "anchors": ["strtk_examples.cpp:parse_example11", "strtk.hpp:expect", "strtk.hpp:iexpect", "strtk.hpp:inrange", "strtk.hpp:trim", "strtk.hpp:as_lcase"]}
{"id": "C164", "title": "Calls whose output is one of their inputs", "statement": "A string that is passed both as an input and as the output of a call is changed exactly as if a copy of it had been passed as input. So converting a string to or from hexadecimal or base64 into itself, combining it bitwise with another into itself, replacing or removing a pattern in it in place, appending copies of itself to it, or using it as delimiter or bracket of what is appended to it gives the same result as with separate objects.", "quantifier": "every content of the strings, every pattern and replacement, every number of copies and elements", "why_tests_cant": "Whether the shared object is changed before its last use depends on lengths and positions that no finite set of tests covers, and writes behind the string need not show in a test.", "anchors": ["strtk.hpp:convert_bin_to_hex", "strtk.hpp:convert_hex_to_bin", "strtk.hpp:convert_bin_to_base64", "strtk.hpp:convert_base64_to_bin", "strtk.hpp:bitwise_transform", "strtk.hpp:replace_pattern", "strtk.hpp:remove_pattern", "strtk.hpp:replicate", "strtk.hpp:join", "strtk.hpp:bracketize"]}
{"id": "C165", "title": "Sums of a token grid in machine arithmetic", "statement": "Adding up a row or a column of a token grid gives, for unsigned types, the sum of the values modulo the size of the type, whatever the order of the rows; for signed types the exact sum as long as every intermediate sum is in the range of the type (for short, the sum modulo 2^16). If a cell is not a number of the type, 0 is returned and the result holds the sum of the cells in front of it. Cells a predicate does not select, and rows without the column, contribute nothing.", "quantifier": "every grid, row, column, range of rows, predicate, initial value; every conversion and addition, and the integer types", "why_tests_cant": "Whether a sum overflows depends on all the cells and on their order.", "anchors": ["strtk.hpp:token_grid::accumulate_row", "strtk.hpp:token_grid::accumulate_column"]}
{"id": "C166", "title": "A filter whose reading was refused", "statement": "A Bloom filter on which read_from_file is called is afterwards, if the call returned true, the filter in the file, whatever it was before; if the call returned false the filter stays usable and forgets nothing it contained. Another read_from_file of a complete file, or an assignment, repairs every filter; a compressible filter that has read a file answers like the filter that was written.", "quantifier": "every state of the filter, every content of the file, every point at which a file was cut short, every key asked afterwards", "why_tests_cant": "The state left behind depends on which of the members had been read when the file ended; tests read good files.", "anchors": ["strtk.hpp:bloom_filter::read_from_file", "strtk.hpp:bloom_filter::reset", "strtk.hpp:bloom_filter::contains", "strtk.hpp:compressible_bloom_filter"]}
{"id": "C167", "title": "Saving a filter or objects under crashes", "statement": "If the program stops at any point while it saves a Bloom filter or writes objects with write_pod, no other file is changed, and reading afterwards gives what it gave before, or all that was saved, or is refused (for write_pod with some of the first objects read and the last ones untouched). Without a crash write_to_file returns true exactly if the filter can be read back.", "quantifier": "every filter, every list of objects, every file system, every crash point, every size of the disk, every behaviour of the stream's buffer, every reading filter", "why_tests_cant": "Crash points and full disks do not occur in unit tests, and the buffer of the stream decides which bytes arrive.", "anchors": ["strtk.hpp:bloom_filter::write_to_file", "strtk.hpp:bloom_filter::read_from_file", "strtk.hpp:write_pod", "strtk.hpp:read_pod"]}
{"id": "C168", "title": "One Bloom filter used by several threads", "statement": "Several threads may use one Bloom filter: if all of them only ask, every answer is that of the filter and there is no data race; if one inserts and the others ask, the filter becomes what the one thread makes of it and a key whose insertion has returned is found by every later question; if several insert, no key and no count is lost. With a lock around every call everything is as if the calls were made one after the other. In no schedule does a thread leave the table, run on for ever, or make the filter say yes to a key that it would deny after all the insertions.", "quantifier": "every filter, every number of threads, every list of calls per thread, every schedule of their single accesses", "why_tests_cant": "Which accesses of two threads meet depends on the schedule; a test shows a few.", "anchors": ["strtk.hpp:bloom_filter::insert", "strtk.hpp:bloom_filter::contains"]}
{"id": "C169", "title": "Callbacks that throw", "statement": "If the predicate or function given to a call throws, the call has no lasting half-done effects that can harm: remove_inplace leaves the sequence with its length and everything from the element that threw on untouched; delete_if leaves in the container exactly the pointers whose objects are still alive; for_each_combination and for_each_permutation have shown what they would have shown up to there and leave a rearrangement of the range; remove_row_if and remove_token_if leave a grid whose rows are rows of the old grid.", "quantifier": "every predicate or function and every point at which it throws; every sequence, container of pointers, range and token grid", "why_tests_cant": "the state left behind depends on where in the input the exception comes and on what was removed before", "anchors": ["strtk.hpp:remove_inplace", "strtk.hpp:util::delete_if", "strtk.hpp:token_grid::remove_row_if, remove_token_if", "strtk.hpp:for_each_combination, for_each_permutation, details::combine_discontinuous"]}
{"id": "C170", "title": "Sums of a token grid in double", "statement": "Adding up a column of a token grid into a double gives the exact sum if the cells are integers and no intermediate sum exceeds 2^53 in absolute value. For decimal texts in general, however many rows there are, a finite result differs from the sum of the values of the texts by at most the fraction (1+2^-53)^n (1+2^-43) - 1 of the sum of the absolute values (plus about n times 2^-1073), where n is the number of rows; and the result is finite if the sum of the absolute values of the numbers stays below 2^1024 by the fraction (1+2^-53)^n. The order of the rows may matter within these bounds.", "quantifier": "every table, column, number of rows, initial value; every list of doubles added", "why_tests_cant": "The error depends on all the cells, their order and their number.", "anchors": ["strtk.hpp:token_grid::accumulate_column", "strtk.hpp:details::string_to_type_converter_impl(real_type_tag)"]}
{"id": "C171", "title": "A token grid when memory runs out", "statement": "If a request for memory fails while a token grid loads a file or a buffer, the grid stays destructible and usable: no buffer is deleted twice or used after deletion, the caller's buffers stay as they are, after destruction nothing of the grid is left, and a later load with enough memory shows its text as if nothing had failed. After a failure while the index grows the grid shows the rows in front of the one that did not fit, completely, and nothing else; how many is determined by the number of requests that succeeded.", "quantifier": "every history of loads and clears, every text, file that is missing or not, and every choice of the requests for memory that fail", "why_tests_cant": "Failures of single requests for memory at every row of every text in every history cannot be provoked by tests.", "anchors": ["strtk.hpp:token_grid::load", "strtk.hpp:token_grid::load_buffer_from_file", "strtk.hpp:token_grid::clear", "strtk.hpp:token_grid::~token_grid", "strtk.hpp:token_grid::row_processor"]}
{"id": "C172", "title": "split with predicates that remember and callers that throw", "statement": "split and split_n may be given a delimiter predicate that has a memory, and a predicate or an output that throws. For every such caller nothing outside the text is read, the tokens lie in the text in order, and the call ends: it returns, or lets out what the caller threw. If the output throws it has exactly the tokens before the one it refused; if the predicate throws, the output has a prefix of the tokens it would have had, and with a predicate that throws at its question number m these are the tokens that end before position m. A predicate that remembers is asked about every character once, in order, and a character is a delimiter exactly if it was answered with yes.", "quantifier": "all texts over any alphabet, all predicates with any state and any exceptions, all outputs, all options, all limits of split_n", "why_tests_cant": "A predicate with memory has unboundedly many behaviours and an exception can come at any question of any text; a test shows one.", "anchors": ["strtk.hpp:split, split_compress_delimiters, split_n", "strtk.hpp:split_options"]}
{"id": "C173", "title": "Parsing when a conversion or a container throws", "statement": "If converting a field or storing a value throws in the middle of parse, parse_n or for_each_line, everything delivered before stays and nothing else is touched. parse into variables: the variables in front hold the values of their fields, the one whose conversion threw holds what that conversion left, those behind are unchanged. parse and parse_n into a container: the container has exactly what the fields in front of the one that threw put in, in order. parse into variables followed by a container: the container is untouched unless all variables took their fields, and nothing at all is converted if there is no memory for the list of fields. for_each_line and for_each_line_n with n at least 1: the line that threw has been read, and a caller that catches every exception and calls again on the same stream sees every line exactly once.", "quantifier": "every text, delimiters, number and kind of targets, every container, every conversion and every state of memory, every field or line at which something throws", "why_tests_cant": "An exception can come at every field of every text and depends on the state of the rest of the program, such as the memory left; a test shows one.", "anchors": ["strtk.hpp:parse", "strtk.hpp:parse_n", "strtk.hpp:range_to_type_back_inserter_iterator", "strtk.hpp:details::container_adder", "strtk.hpp:for_each_line, for_each_line_n"]}
{"id": "C174", "title": "The tokenizer with predicates that remember and predicates that throw", "statement": "A tokenizer may be given a delimiter predicate that has a memory or throws. For every such predicate and every number of increments, with exceptions caught in between, nothing outside the text is read and the token shown lies in the text; going from begin to end ends, at the end of the tokens or with the exception. The tokens used before an exception are the first ones of those the same predicate gives without it; an increment that throws leaves the iterator showing the token it showed, and the next increment shows the token the failed one would have shown. A predicate that remembers is asked about every character once, in order, and a character is a delimiter exactly if it was answered with yes.", "quantifier": "all texts over any alphabet, all predicates with any state and any exceptions, all options, all numbers of increments", "why_tests_cant": "A predicate with memory has unboundedly many behaviours and an exception can come at any question of any text; a test shows one.", "anchors": ["strtk.hpp:std_string::tokenizer, tokenizer_iterator::operator++", "strtk.hpp:tokenize_options"]}
{"id": "C175", "title": "Parsing into the text, the delimiters, one variable twice, or the text's own container", "statement": "The targets of parse may be any objects of the caller. A variable given as target twice ends with the value of the later field; the string that holds the delimiters may be a target; the string that holds the text may be a target and gets its field as from a copy of the text; an element of a sequence of strings may be parsed into that sequence, which then has the fields behind its old elements. Nothing invalid is read.", "quantifier": "every text, delimiters, list of targets in which objects may repeat, every converter, every sequence, element and capacity", "why_tests_cant": "Which characters are still there when a later field is read depends on the order of the targets, the fields and the capacity of the container; a test that happens to read stale but intact memory passes.", "anchors": ["strtk.hpp:parse(data,delimiters,t1,...)", "strtk.hpp:parse(data,delimiters,container)", "strtk.hpp:details::split_compress_delimiters"]}
{"id": "C176", "title": "What decimal_sink stores in double arithmetic", "statement": "For a number written with a point whose digits before the point fit int_size, decimal_sink stores, in every floating-point arithmetic, what the ordinary conversion of the number cut after frac_size digits behind the point stores. In IEEE double, with up to 22 digits behind the point and both parts at most 2^53: the number stored differs from the number written by two roundings at most (a factor within 2^-52 + 2^-106); a number a double of 53 bits can hold is stored exactly; of two numbers with equally many digits behind the point and fewer than 2^51 units of the last digit the smaller one is stored as the smaller and each can be recovered by rounding to that many digits; digits behind frac_size are dropped and not rounded. The number stored need not be the nearest double: 1.14 is stored, by the sink and by the ordinary conversion, as the double above the nearest one.", "quantifier": "every sign, every digit string before and behind the point, every rest of the text, every pair of sizes", "why_tests_cant": "a test reads some numbers and compares with a tolerance or with the numbers on which no double rounding happens", "anchors": ["strtk.hpp:decimal_sink::operator() (15168-15231)", "strtk.hpp:details::pow10 (16781-16841)"]}
{"id": "C177", "title": "The time in seconds a timer reports", "statement": "After any history of start and stop calls that ends with the timer stopped, time() is the number of seconds between the last start and the last stop readings, off by at most three roundings of double arithmetic (two up to 2^53 microseconds), provided the clock was not set back. Up to 2^51 microseconds (71 years) the microseconds are recovered by rounding and a longer time is reported as a greater number. A running timer, and a timer whose clock was set back, reports more than 18446744073708 seconds. scoped_timer stores the seconds of its block at the end, also when the block throws.", "quantifier": "every history of calls, every clock reading before the year 250000, every block", "why_tests_cant": "a test measures a few short times on one clock that is not set back", "anchors": ["strtk.hpp:util::timer (24379-24470)", "strtk.hpp:util::scoped_timer (24472-24495)"]}
{"id": "C178", "title": "Seeds and skipped numbers", "statement": "generate_random_values appends exactly count values in the range of its distribution; asking for more values with the same seed continues the same values; of a seed only the low 32 bits count; with a distribution that takes one number per value, pregen skips exactly pregen values; random_permutation and random_combination by seed rearrange or choose elements for every seed and every pregen. uniform_real_rng(seed,pregen) gives the values that follow the pregen skipped ones: this fails, its numbers do not depend on pregen.", "quantifier": "every engine, every distribution, every seed, every count and number of skipped values, every range", "why_tests_cant": "a test draws a few numbers from one engine with one seed", "anchors": ["strtk.hpp:generate_random_values (11954-11982)", "strtk.hpp:uniform_real_rng (11926-11952)", "strtk.hpp:random_permutation, random_combination by seed (12004-12081)"]}
{"id": "C179", "title": "Strings when memory is refused", "statement": "When a request for memory is refused in the middle of a call, what the output string holds is known. convert_bin_to_hex, convert_hex_to_bin, convert_bin_to_base64, convert_base64_to_bin, twoway_bitwise_interleave, bitwise_transform, replace_pattern and remove_pattern leave it either with the whole result or exactly as it was, and ask for nothing when its capacity is sufficient. remove_inplace never asks for memory. construct, join and join_if leave whole texts and whole delimiters behind the old text, in order and none missing in between; bracketize leaves only texts with both brackets. replicate and replicate_inplace add every copy or none, provided the final size fits in 64 bits; otherwise some copies may stay. When no request is refused, the call ends with its ordinary result.", "quantifier": "every input, every previous content and capacity of the output string, every choice of requests that are refused, every policy of growth", "why_tests_cant": "which request is refused, and how much a string reserves when it grows, are outside the control of a test; the states after an exception are not visited by ordinary runs", "anchors": ["strtk.hpp:convert_bin_to_hex", "strtk.hpp:convert_hex_to_bin", "strtk.hpp:convert_bin_to_base64", "strtk.hpp:convert_base64_to_bin", "strtk.hpp:twoway_bitwise_interleave", "strtk.hpp:bitwise_transform", "strtk.hpp:replace_pattern", "strtk.hpp:remove_pattern", "strtk.hpp:remove_inplace", "strtk.hpp:construct", "strtk.hpp:join", "strtk.hpp:join_if", "strtk.hpp:bracketize", "strtk.hpp:replicate", "strtk.hpp:replicate_inplace"]}
{"id": "C180", "title": "Memory a binary reader can be made to take", "statement": "strtk::binary::reader can be given bytes from anywhere. Whatever lengths the bytes announce, what a target holds outside itself after the call (the bytes of its texts and, for each element of a container, the size of the element) is at most what it held before plus a fixed number of bytes, depending on the type only, for each byte of the buffer; if the read succeeds, for each byte it consumed. A short or pascal string in addition may be resized to the length it announces although its bytes are missing, at most 255, 65535 or 4294967295. A block that is allocated for a T*& is as long as the bytes behind its length. For a container of deques, lists, queues or sets this is false: the elements of each inner container are added to those before, so a buffer of n bytes can take memory in proportion to n squared.", "quantifier": "every buffer of fewer than 2^63 bytes, every state of the reader, every type built from objects, strings, pairs and containers, every previous value of the target, every table of sizes of types", "why_tests_cant": "bytes of a hostile sender cannot be enumerated, and a test of a few of them says nothing about the largest amount that can be asked for", "anchors": ["strtk.hpp:binary::reader::operator() (13957-14112)", "strtk.hpp:binary::reader::read_vector (14235-14285)", "strtk.hpp:binary::details::short_string_impl (14740-14790)"]}
{"id": "C181", "title": "Optimal parameters in floating point", "statement": "bloom::parameters::compute_optimal_parameters works in IEEE double arithmetic: every product, quotient and difference is rounded, and std::pow and std::log are only accurate to a few units of the last place. Still the number of hash functions it chooses needs, up to a small relative error, no more bits than any other number from 1 to 999, and the table size it sets is the exact requirement up to the same error and the rounding to a multiple of eight; the error grows as the probability comes close to one, is below a millionth up to 1 - 2^-12, and the filter keeps the probability for all but this fraction of the announced elements. No probability strictly between zero and one leads to undefined behaviour or to a table that is far too small.", "quantifier": "every projected element count below 2^64, every double probability between 0 and 1, all size and hash limits, every implementation of pow and log with relative error at most 2^-50", "why_tests_cant": "Rounding errors depend on the probability and count chosen and on the C library; a test compares a few outputs and cannot bound the error over all doubles or all conforming libraries.", "anchors": ["strtk.hpp:bloom::parameters::compute_optimal_parameters", "strtk.hpp:bloom::parameters::operator!"]}
{"id": "C182", "title": "Names of types tell types apart", "statement": "type_name gives two values the same text only when their types are the same, for the types built of the registered ones (the integer types but plain char and bool, the floating types, std::string) by pairs of any depth, arrays, and vector, deque, list, set or multiset of a registered type. For all other types the text tells precisely the type with every part that is not registered (a container of containers, a container in a pair, an array of arrays, char, bool, classes) replaced by Unknown.", "quantifier": "all types built of registered and other types by pairs, arrays and containers to any depth", "why_tests_cant": "There are infinitely many types; that no two of their names collide is unique readability of a grammar, and tests print a few names.", "anchors": ["strtk.hpp:type_name", "strtk.hpp:details::type_name", "strtk.hpp:strtk_register_type_name", "strtk.hpp:strtk_register_sequence_type_name", "strtk.hpp:strtk_register_set_type_name"]}
{"id": "C183", "title": "The false positive probability a filter reports is accurate", "statement": "With correct standard functions (exp and pow accurate to the fraction 2^-50), effective_fpp() of a filter with k hash functions, m bits (up to 2^45) and i inserted elements reports (1 - e^(-ki/m))^k up to the fraction 2^-49 + 2^-46 max(k, m/i), rounding errors of double included, unless that number is below 2^-999. It reports zero for an empty filter, does not fall while elements are inserted if exp and pow are monotone, and stays below the probability asked for, up to that fraction, while no more elements than announced are in a filter of the required size.", "quantifier": "all numbers of hash functions below 2^32, all numbers of elements below 2^32, all table sizes up to 2^45 bits, all accurate exp and pow", "why_tests_cant": "The subtraction from one loses digits when the filter is nearly empty and the power multiplies the error; a bound for every filling is a statement about all of them.", "anchors": ["strtk.hpp:bloom::filter::effective_fpp"]}
{"id": "C184", "title": "Conversion of text to long double", "statement": "A decimal number given as text is converted to `long double` with a relative error of at most 2^-49; an integer of at most 64 bits is converted exactly, and with an exponent from -22 to 22 to the nearest `long double`.", "quantifier": "every number with an optional sign, digits before and behind the point, exponent and type suffix", "why_tests_cant": "A test compares a few literals; the loss of accuracy depends on every digit, the length and the exponent.", "anchors": ["strtk.hpp:details::pow10", "strtk.hpp:string_to_real_converter"]}
{"id": "C185", "title": "A long double written as text and read back", "statement": "type_to_string of a `long double` followed by string_to_type_converter gives back a number within 6e-10 of it; integers of at most ten digits, infinities and nan come back unchanged.", "quantifier": "every finite number in the range of the type, infinities and nan", "why_tests_cant": "The range has 2^80 values with exponents from -4951 to 4932; a test reads back a few.", "anchors": ["strtk.hpp:type_to_string", "strtk.hpp:string_to_real_converter", "strtk.hpp:details::pow10"]}
{"id": "C186", "title": "Removing a column or a range of rows from the table of a grid", "statement": "In the table behind a token_grid, removing rows r0 to r1 (r0 <= r1 < row_count) leaves exactly the other rows, in order, with every token as before, and any other range is refused and leaves the table unchanged. Removing column c (below the width noted when the grid was loaded) removes from every row of more than c tokens its token at c and nothing else, leaves shorter rows alone, keeps the order of rows and of tokens, and notes the width of the remaining table; any other column is refused without change. Both hold for rows of any lengths, empty rows included, and no access falls outside the table.", "quantifier": "every table of fewer than 2^32 tokens and rows, every column, every pair of row numbers", "why_tests_cant": "The copying loop depends on how long rows and short rows alternate, and the row index is kept in 32-bit numbers that wrap for empty rows; a test tries a few shapes of table.", "anchors": ["strtk.hpp:strtk.hpp", "strtk.hpp:token_grid::store::remove_row_range", "strtk.hpp:token_grid::store::remove_column"]}
{"id": "C187", "title": "Exceptions in the key/value parser", "statement": "When the lookup of a key, the conversion of a value or the growth of the parser's list of pairs throws: a strict call has then taken exactly the pairs in front of the one that threw, each as without exceptions, plus whatever that pair's conversion did to its own variable; if the list of pairs gets no memory, nothing was looked up or changed.  A lenient call has dealt with exactly the tokens in front, and failure_count() is the number of those that failed; a strict call leaves failure_count().  No variable that no pair of the text names changes.  The parser is then as good as new: every later call does what it does on another parser with the same keys.", "quantifier": "all texts, delimiters, maps, converters that may throw in any state of the world and change it, all points where memory is refused, all histories of calls", "why_tests_cant": "the exception can come from any of the lookups and conversions of any text, or from any growth of the list, and what remains matters for any later call", "anchors": ["strtk.hpp:keyvalue::parser::operator(), keyvalue::parser::failure_count, pair_token_processor, key_map::operator(), uintkey_map::operator()"]}
{"id": "C188", "title": "The comparison program (strtk_tokenizer_cmp)", "statement": "The numbers the comparison program prints for the library are right: the tokenizer test prints the number of delimiters of the replicated text (less its last character) plus one and joins the text without its delimiters; for copies of a base that ends in a delimiter it is the number of copies times the delimiters of the base; the split test has the tokens of the text with runs of delimiters made one; the integer to string test prints the total length of the numerals from -(m/2) up to m/2; the two string to integer tests print the sum of the numbers times the rounds; the string to double test, which takes the numbers off and adds them in turns, prints an error of zero for integers and otherwise one within the rounding of its additions.", "quantifier": "all bases, delimiter strings, numbers of copies, ranges, lists of numerals and rounds", "why_tests_cant": "the program is only ever run with one text and one list, and prints totals nobody checks", "anchors": ["strtk_tokenizer_cmp.cpp: strtk_tokenizer_timed_test, strtk_split_timed_test, strtk_lexical_cast_test_i2s, strtk_lexical_cast_test_s2i, strtkfast_lexical_cast_test_s2i, strtk_cast_test_s2d"]}
{"id": "C189", "title": "Joining a row or column of a grid when memory runs out", "statement": "When a request for memory is refused while join_row or join_column appends to a string, the string holds its old text followed by the first pieces (tokens and delimiters) of what would have been appended, each of them whole; without a refusal it holds all of them. join_row to an empty string asks for memory at most once and is all or nothing: the whole row, or an empty string of unchanged capacity. To a string that already has enough capacity nothing is asked for. A row or column that is not there leaves the string alone. (To a string that is not empty join_row is not all or nothing: what it reserves does not count the text that is there.)", "quantifier": "all texts loaded, all grids and what is left of them after removals, rows, columns and ranges, delimiters, predicates, strings and capacities, growth policies and patterns of refusals", "why_tests_cant": "Refusals depend on the allocator and can hit any request; a test sees one pattern of refusals for one grid and one string.", "anchors": ["strtk.hpp:token_grid::join_row", "strtk.hpp:token_grid::join_column"]}
{"id": "C190", "title": "Joining a row or column of a grid into the delimiter or into the loaded string", "statement": "join_row and join_column give the same text when the result string is also the delimiter, or is the string the grid was made from, as when a copy of that string is used in its place. (False of the code: with the delimiter as result the text doubles with every token, unless no token is looked at behind one that was put out; with the loaded string as result the tokens are read where they no longer are, as soon as the string has to move before the last token with characters.)", "quantifier": "all grids, rows, columns and ranges, predicates, delimiters, strings, capacities and growth policies", "why_tests_cant": "A test sees one row or column and one capacity; with room to spare in the string nothing goes wrong.", "anchors": ["strtk.hpp:token_grid::join_row", "strtk.hpp:token_grid::join_column", "strtk.hpp:token_grid::token_grid(const std::string&, ...)"]}
{"id": "C191", "title": "Conversion to double keeps the order of numbers", "statement": "If the number written in one text is at most the number written in another, the double converted from the first is at most the double converted from the second; texts of the same number give the same double. (True for numbers without exponent whose digits in front of the point and behind it are each worth at most 2^53, with at most 22 digits behind the point; for integers of at most 2^53 with exponents from -22 to 22; for integers of at most 2^53, where the order is kept strictly; and for all decimal texts in the range of the type whose values differ by 2^-43 of their sizes. False in general: 90071992547409929 is converted to a larger double than 90071992547409930, and 1.14 to a larger one than 114e-2; grossly so with many digits: 0.5 with 309 to 614 zeros behind it is converted to infinity. Converted to long double, 0.5 with 308 to 1999 zeros behind it becomes zero; integers of at most 2^64 with exponents from -22 to 22 keep their order, and so do numbers in the range of C184 that differ by 2^-49 of their sizes.)", "quantifier": "all pairs of decimal texts: signs, leading zeros, numbers of digits, notations and suffix letters", "why_tests_cant": "Order is a statement about all pairs of texts; the pairs where it fails are few, and tests compare each text with its own value.", "anchors": ["strtk.hpp:details::string_to_type_converter_impl", "strtk.hpp:string_to_type_converter"]}
{"id": "C192", "title": "Writing numbers as text and reading them back keeps their order", "statement": "For zero and normal doubles a <= b, type_to_string and string_to_type_converter give back numbers a' <= b' (the largest doubles come back as infinities, which are in order, too). a' and b' differ exactly when the two texts differ, and always when a and b differ by more than 1e-9 of their sizes; neighbouring doubles can come back as the same number.", "quantifier": "all pairs of zero and normal doubles", "why_tests_cant": "It is a statement about all pairs of doubles; the numbers change in the tenth digit on writing and in the last bits on reading, in fixed and in scientific notation.", "anchors": ["strtk.hpp:type_to_string", "strtk.hpp:string_to_type_converter", "strtk.hpp:details::string_to_type_converter_impl"]}
