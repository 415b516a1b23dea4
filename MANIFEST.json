{
 "claims": [
  {
   "property": "C01",
   "status": "proved",
   "theorems": [
    "Strtk.Split.C01_split_default",
    "Strtk.Split.C01_split_positions",
    "Strtk.Inserters.C01_for_each_token"
   ],
   "note": ""
  },
  {
   "property": "C02",
   "status": "proved",
   "theorems": [
    "Strtk.Split.C02_split_compress",
    "Strtk.Split.C02_split_compress_eq_split_collapsed",
    "Strtk.Split.C02_collapseRuns_sound"
   ],
   "note": ""
  },
  {
   "property": "C03",
   "status": "proved",
   "theorems": [
    "Strtk.Split.C03_split_in_bounds"
   ],
   "note": ""
  },
  {
   "property": "C04",
   "status": "proved",
   "theorems": [
    "Strtk.Split.C04_option_bits",
    "Strtk.Split.C04_options_combined",
    "Strtk.Split.C04_split_modes",
    "Strtk.Split.C04_splits_unique",
    "Strtk.Split.C04_split_tiles"
   ],
   "note": ""
  },
  {
   "property": "C05",
   "status": "partial",
   "theorems": [
    "Strtk.Split.C05_tokenizer_eq_split_partial",
    "Strtk.Split.C05_tokenizer_eq_split",
    "Strtk.Split.C05_all_bits_disagree"
   ],
   "note": "Proved for every option combination except all three bits set together, where the code's two traversals disagree (witness theorem)."
  },
  {
   "property": "C06",
   "status": "proved",
   "theorems": [
    "Strtk.Split.C06_split_n_prefix_partial",
    "Strtk.Split.C06_split_n_prefix",
    "Strtk.Split.C06_include_all_disagrees"
   ],
   "note": "Proved for the default and compress options the property names; also for every combination except include_all_delimiters alone, where the code disagrees (witness theorem)."
  },
  {
   "property": "C07",
   "status": "proved",
   "theorems": [
    "Strtk.Split.C07_offset_splitter",
    "Strtk.Split.C07_offset_splitter_prefix",
    "Strtk.Split.C07_reuse_without_reset_is_ub"
   ],
   "note": "Includes the out-of-range read when a non-rotating predicate is reused without reset()."
  },
  {
   "property": "C08",
   "status": "proved",
   "theorems": [
    "Strtk.Split.C08_split_pair_none",
    "Strtk.Split.C08_split_pair_some",
    "Strtk.Split.C08_split_pair_iff"
   ],
   "note": ""
  },
  {
   "property": "C09",
   "status": "proved",
   "theorems": [
    "Strtk.Strings.C09_remove_inplace_range",
    "Strtk.Strings.C09_remove_inplace"
   ],
   "note": ""
  },
  {
   "property": "C10",
   "status": "proved",
   "theorems": [
    "Strtk.Strings.C10_remove_consecutives_pred",
    "Strtk.Strings.C10_remove_consecutives",
    "Strtk.Strings.C10_no_equal_neighbours"
   ],
   "note": ""
  },
  {
   "property": "C11",
   "status": "partial",
   "theorems": [
    "Strtk.Strings.C11_remove_duplicates_partial",
    "Strtk.Strings.C11_high_char_is_ub"
   ],
   "note": "Proved for 7-bit text; with any byte >= 0x80 the code reads outside its table (proved)."
  },
  {
   "property": "C12",
   "status": "partial",
   "theorems": [
    "Strtk.Strings.C12_remove_leading",
    "Strtk.Strings.C12_remove_trailing_partial",
    "Strtk.Strings.C12_remove_trailing_all_match",
    "Strtk.Strings.C12_remove_leading_trailing",
    "Strtk.Strings.C12_trim_idempotent"
   ],
   "note": "remove_trailing keeps the first character of a text consisting of matching characters only (proved); everything else is as stated."
  },
  {
   "property": "C13",
   "status": "proved",
   "theorems": [
    "Strtk.Strings.C13_iterators",
    "Strtk.Strings.C13_iterators_empty",
    "Strtk.Strings.C13_plain_iterator",
    "Strtk.Strings.C13_replace_pattern",
    "Strtk.Strings.C13_empty_pattern",
    "Strtk.Strings.C13_no_occurrence",
    "Strtk.Strings.C13_remove_pattern"
   ],
   "note": "Pattern and replacement shorter than 2^31, result shorter than 2^64; for the iterator overload the text is shorter than 2^31 and the output iterator appends. With an output iterator that does not append (outside the statement, which speaks of the result) C13_plain_iterator shows that the pieces overwrite each other."
  },
  {
   "property": "C14",
   "status": "proved",
   "theorems": [
    "Strtk.Strings.C14_replace",
    "Strtk.Strings.C14_copy_if",
    "Strtk.Strings.C14_copy_while",
    "Strtk.Strings.C14_copy_until",
    "Strtk.Strings.C14_range_only_contains",
    "Strtk.Strings.C14_copy_n"
   ],
   "note": ""
  },
  {
   "property": "C15",
   "status": "partial",
   "theorems": [
    "Strtk.Find.C15_match_greedy",
    "Strtk.Find.C15_one_star",
    "Strtk.Find.C15_one_star_partial",
    "Strtk.Find.C15_star_first_only",
    "Strtk.Find.C15_match_sound_partial",
    "Strtk.Find.C15_match_unsound",
    "Strtk.Find.C15_match_incomplete",
    "Strtk.Find.C15_match_out_of_bounds",
    "Strtk.Find.C15_match_exact_partial",
    "Strtk.Find.C15_no_star_in_bounds"
   ],
   "note": "The relation as stated is false of the code: witnesses of an unsound acceptance, a missed match and an out-of-range read. Proved: the answer for every pattern and text in terms of a greedy specification (match_greedy); for one '*', exactness when the character after it occurs once in the rest (one_star_partial), and the failures otherwise (one_star, star_first_only); soundness whenever the scan does not overrun; exactness for patterns without '*'."
  },
  {
   "property": "C16",
   "status": "proved",
   "theorems": [
    "Strtk.Find.C16_find_all",
    "Strtk.Find.C16_find_all_sound_complete",
    "Strtk.Find.C16_empty_pattern_diverges"
   ],
   "note": "Also proved: an empty pattern never terminates (outside the property's precondition)."
  },
  {
   "property": "C17",
   "status": "proved",
   "theorems": [
    "Strtk.Find.C17_index_of",
    "Strtk.Find.C17_ifind",
    "Strtk.Find.C17_index_of_empty",
    "Strtk.Find.C17_begins_with",
    "Strtk.Find.C17_ends_with",
    "Strtk.Find.C17_begins_ends_plain"
   ],
   "note": ""
  },
  {
   "property": "C18",
   "status": "partial",
   "theorems": [
    "Strtk.Find.C18_imatch_partial",
    "Strtk.Find.C18_imatch_equivalence",
    "Strtk.Find.C18_high_char_is_ub"
   ],
   "note": "Proved for 7-bit text; bytes >= 0x80 reach toupper with a negative argument, undefined behaviour (proved)."
  },
  {
   "property": "C19",
   "status": "proved",
   "theorems": [
    "Strtk.Codec.C19_hex_encode",
    "Strtk.Codec.C19_hex_alphabet",
    "Strtk.Codec.C19_hex_decode",
    "Strtk.Codec.C19_hex_round_trip"
   ],
   "note": ""
  },
  {
   "property": "C20",
   "status": "proved",
   "theorems": [
    "Strtk.Codec.C20_base64_encode",
    "Strtk.Codec.C20_base64_alphabet",
    "Strtk.Codec.C20_base64_decode",
    "Strtk.Codec.C20_base64_round_trip"
   ],
   "note": ""
  },
  {
   "property": "C21",
   "status": "partial",
   "theorems": [
    "Strtk.Codec.C21_hex_exact",
    "Strtk.Codec.C21_base64_exact",
    "Strtk.Codec.C21_hex_decoder_safe",
    "Strtk.Codec.C21_hex_accepts_garbage",
    "Strtk.Codec.C21_base64_decoder_safe_partial",
    "Strtk.Codec.C21_base64_short_is_ub",
    "Strtk.Codec.C21_base64_accepts_garbage"
   ],
   "note": "Both decoders are described exactly for every text (C21_hex_exact; C21_base64_exact for two or more characters). Rejection is false: neither decoder validates its characters; shorter base64 texts read out of range (proved)."
  },
  {
   "property": "C22",
   "status": "proved",
   "theorems": [
    "Strtk.Codec.C22_uppercase",
    "Strtk.Codec.C22_lowercase",
    "Strtk.Codec.C22_printable",
    "Strtk.Codec.C22_idempotent"
   ],
   "note": ""
  },
  {
   "property": "C23",
   "status": "partial",
   "theorems": [
    "Strtk.Codec.C23_interleave",
    "Strtk.Codec.C23_lengths_differ",
    "Strtk.Codec.C23_interleave_injective",
    "Strtk.Codec.C23_string_overload_overflows",
    "Strtk.Codec.C23_nway_table"
   ],
   "note": "Iterator version and n-way tables proved, texts of different lengths are refused; the string overload writes out of bounds for all texts of two or more characters (proved)."
  },
  {
   "property": "C24",
   "status": "proved",
   "theorems": [
    "Strtk.Codec.C24_high_bit_count",
    "Strtk.Codec.C24_high_bit_count_range",
    "Strtk.Codec.C24_hamming_distance",
    "Strtk.Codec.C24_hamming_metric"
   ],
   "note": ""
  },
  {
   "property": "C25",
   "status": "partial",
   "theorems": [
    "Strtk.Codec.C25_hamming_elementwise_diverges",
    "Strtk.Codec.C25_hamming_elementwise_partial"
   ],
   "note": "False of the code: the loop never advances, so it diverges on every pair of equally long non-empty ranges (proved for all fuel)."
  },
  {
   "property": "C26",
   "status": "proved",
   "theorems": [
    "Strtk.Codec.C26_bit_state",
    "Strtk.Codec.C26_set_bit",
    "Strtk.Codec.C26_out_of_range"
   ],
   "note": ""
  },
  {
   "property": "C27",
   "status": "proved",
   "theorems": [
    "Strtk.Codec.C27_bitwise_transform",
    "Strtk.Codec.C27_xor_involution"
   ],
   "note": ""
  },
  {
   "property": "C28",
   "status": "partial",
   "theorems": [
    "Strtk.Number.C28_unsigned_text",
    "Strtk.Number.C28_signed_text",
    "Strtk.Number.C28_canonical",
    "Strtk.Number.C28_unsigned_round_trip",
    "Strtk.Number.C28_short_round_trip",
    "Strtk.Number.C28_signed_round_trip_partial",
    "Strtk.Number.C28_least_value_fails",
    "Strtk.Number.C28_long_round_trip_partial",
    "Strtk.Number.C28_bool_byte_round_trip",
    "Strtk.Number.C28_bool_exact"
   ],
   "note": "Canonical text proved for all types. Round trip proved for short, unsigned short, unsigned int, unsigned long long, and int / long long except the least value (parsing it overflows: proved); long / unsigned long (64 bits) only accept 32-bit values (proved)."
  },
  {
   "property": "C29",
   "status": "partial",
   "theorems": [
    "Strtk.Number.C29_unsigned",
    "Strtk.Number.C29_unsigned_long_partial",
    "Strtk.Number.C29_unsigned_long_rejects",
    "Strtk.Number.C29_short",
    "Strtk.Number.C29_signed_partial",
    "Strtk.Number.C29_least_value_overflows",
    "Strtk.Number.C29_long_partial",
    "Strtk.Number.C29_long_rejects",
    "Strtk.Number.C29_byte"
   ],
   "note": "Exact acceptance proved for short and the unsigned types, for int / long long apart from the least value (undefined behaviour, proved); long / unsigned long reject representable values from 2^31 / 2^32 on (proved)."
  },
  {
   "property": "C30",
   "status": "partial",
   "theorems": [
    "Strtk.Real.C30_accepts_only_partial",
    "Strtk.Real.C30_stray",
    "Strtk.Real.C30_no_over_read_partial",
    "Strtk.Real.C30_deep_fraction",
    "Strtk.Real.C30_deep_exponent",
    "Strtk.Real.C30_integer_exact",
    "Strtk.Real.C30_correctly_rounded",
    "Strtk.Real.C30_fraction_correctly_rounded",
    "Strtk.Real.C30_decimal_two_roundings",
    "Strtk.Real.C30_error_bound",
    "Strtk.Real.C30_value",
    "Strtk.Real.C30_special",
    "Strtk.Real.C30_large_exponent",
    "Strtk.Real.C30_fraction_wraps"
   ],
   "note": "Accepted texts are characterised (C30_accepts_only_partial) and usual notation is converted to exactly the number denoted in exact arithmetic (C30_value). In binary floating point with p bits, round to nearest even, without overflow and underflow: integers of at most p bits are exact (C30_integer_exact), integers with small exponents and pure fractions are correctly rounded (C30_correctly_rounded, C30_fraction_correctly_rounded), and everything the tables cover has a bounded relative error (C30_error_bound). The claim is false in four ways: a fraction of 2^32 + k digits is scaled like one of k digits (C30_fraction_wraps), any non-digit after e is accepted before a suffix letter (C30_stray), more than 615 fraction digits or an exponent below -615 read outside the table (C30_deep_fraction, C30_deep_exponent), and exponents above 308 are multiplied by ten (C30_large_exponent)."
  },
  {
   "property": "C31",
   "status": "partial",
   "theorems": [
    "Strtk.Fast.C31_numeric_convert",
    "Strtk.Fast.C31_numeric_convert_rejects",
    "Strtk.Fast.C31_unchecked",
    "Strtk.Fast.C31_numeric_convert_N_unchecked",
    "Strtk.Fast.C31_numeric_convert_N",
    "Strtk.Fast.C31_signed_numeric_convert",
    "Strtk.Fast.C31_signed_rejects",
    "Strtk.Fast.C31_signed_empty_is_ub",
    "Strtk.Fast.C31_no_range_check",
    "Strtk.Fast.C31_all_digits",
    "Strtk.Fast.C31_signed_all_digits",
    "Strtk.Fast.C31_unsigned_wraps"
   ],
   "note": "Value, acceptance and rejection proved for 16/32/64-bit targets whose range contains the value; there is no range check: an unsigned target takes every text of up to 19 digits, the empty one too, modulo 2^bits (C31_unsigned_wraps), signed overflow is undefined (witness), and the signed version reads *begin of an empty range (proved)."
  },
  {
   "property": "C32",
   "status": "partial",
   "theorems": [
    "Strtk.Sinks.C32_hex_sink_behaviour",
    "Strtk.Sinks.C32_hex_sink_partial",
    "Strtk.Sinks.C32_short_numeral_wrong",
    "Strtk.Sinks.C32_not_hex_invalid",
    "Strtk.Sinks.C32_too_long_keeps_state",
    "Strtk.Sinks.C32_empty"
   ],
   "note": "Exact behaviour proved for every text; the value property holds for numerals of full width (C32_hex_sink_partial), short numerals land in the wrong bytes and over-long ones keep the old validity (proved)."
  },
  {
   "property": "C33",
   "status": "proved",
   "theorems": [
    "Strtk.Parse.C33_parse_succeeds",
    "Strtk.Parse.C33_too_few_fields",
    "Strtk.Parse.C33_bad_field"
   ],
   "note": ""
  },
  {
   "property": "C34",
   "status": "proved",
   "theorems": [
    "Strtk.Parse.C34_parse_container",
    "Strtk.Parse.C34_parse_container_any_option",
    "Strtk.Parse.C34_parse_n",
    "Strtk.Parse.C34_parse_tail",
    "Strtk.Parse.C34_short_converter"
   ],
   "note": ""
  },
  {
   "property": "C35",
   "status": "proved",
   "theorems": [
    "Strtk.Join.C35_join",
    "Strtk.Join.C35_join_argv",
    "Strtk.Join.C35_split_of_join",
    "Strtk.Join.C35_singleton_empty",
    "Strtk.Join.C35_join_of_split"
   ],
   "note": "For lists other than the single empty string, whose join is empty and splits to no token (proved)."
  },
  {
   "property": "C36",
   "status": "proved",
   "theorems": [
    "Strtk.Join.C36_join_if"
   ],
   "note": ""
  },
  {
   "property": "C37",
   "status": "proved",
   "theorems": [
    "Strtk.Parse.C37_construct_fields",
    "Strtk.Parse.C37_construct_then_parse",
    "Strtk.Parse.C37_ints"
   ],
   "note": ""
  },
  {
   "property": "C38",
   "status": "proved",
   "theorems": [
    "Strtk.Join.C38_replicate",
    "Strtk.Join.C38_replicate_inplace",
    "Strtk.Join.C38_bracketize",
    "Strtk.Join.C38_inserter",
    "Strtk.Join.C38_everyKth_blocks",
    "Strtk.Join.C38_inserter_zero"
   ],
   "note": ""
  },
  {
   "property": "C39",
   "status": "partial",
   "theorems": [
    "Strtk.Join.C39_cut_partial",
    "Strtk.Join.C39_cut_inplace_partial",
    "Strtk.Join.C39_reversed_range",
    "Strtk.Join.C39_reversed_range_witness"
   ],
   "note": "Proved for r0 <= r1; for r1 < r0 the length wraps and the whole tail is delivered (proved)."
  },
  {
   "property": "C40",
   "status": "partial",
   "theorems": [
    "Strtk.Join.C40_translate_partial",
    "Strtk.Join.C40_high_bytes_ub",
    "Strtk.Join.C40_size_mismatch"
   ],
   "note": "Proved for ASCII; for bytes from 0x80 on the signed index runs outside the table (proved undefined)."
  },
  {
   "property": "C41",
   "status": "partial",
   "theorems": [
    "Strtk.Combi.C41_n_choose_k_partial",
    "Strtk.Combi.C41_zero_zero",
    "Strtk.Combi.C41_wrap_ub"
   ],
   "note": "Proved for every sequence of calls with n < 2^32 (values modulo 2^64). n_choose_k(0,0) returns 0 (C41_zero_zero); for n >= 2^33 the table size wraps and the static table is read out of bounds (C41_wrap_ub)."
  },
  {
   "property": "C42",
   "status": "partial",
   "theorems": [
    "Strtk.Combi.C42_nth_permutation_partial",
    "Strtk.Combi.C42_distinct",
    "Strtk.Combi.C42_overflow_wrong",
    "Strtk.Combi.C42_division_by_zero",
    "Strtk.Combi.C42_k_zero",
    "Strtk.Combi.C42_string_partial",
    "Strtk.Combi.C42_onto_partial",
    "Strtk.Combi.C42_string_all_partial",
    "Strtk.Combi.C42_range_partial"
   ],
   "note": "Proved for 1 <= k <= 21, also for texts (C42_string_partial) and with every arrangement reached (C42_onto_partial, C42_string_all_partial). From k = 22 the factorials overflow (C42_overflow_wrong), from k = 67 the code divides by zero (C42_division_by_zero). The iterator overload writes iterators instead of elements (C42_range_partial)."
  },
  {
   "property": "C43",
   "status": "partial",
   "theorems": [
    "Strtk.Combi.C43_nth_combination",
    "Strtk.Combi.C43_complete_partial",
    "Strtk.Combi.C43_k_lt_two",
    "Strtk.Combi.C43_pointer_overwrites",
    "Strtk.Combi.C43_range"
   ],
   "note": "Proved for r < 2^32 and C(r,k) < 2^64 through an appending output iterator, and over a range of elements (C43_range). Through a plain iterator the complement overwrites the combination (C43_pointer_overwrites); k < 2 reads out of bounds (C43_k_lt_two)."
  },
  {
   "property": "C44",
   "status": "proved",
   "theorems": [
    "Strtk.Combi.C44_permutes",
    "Strtk.Combi.C44_next_combination",
    "Strtk.Combi.C44_visits_all"
   ],
   "note": ""
  },
  {
   "property": "C45",
   "status": "proved",
   "theorems": [
    "Strtk.Combi.C45_conditional",
    "Strtk.Combi.C45_showUntil",
    "Strtk.Combi.C45_order",
    "Strtk.Combi.C45_for_each_combination"
   ],
   "note": ""
  },
  {
   "property": "C46",
   "status": "partial",
   "theorems": [
    "Strtk.Binary.C46_convert16",
    "Strtk.Binary.C46_convert64",
    "Strtk.Binary.C46_involution_partial",
    "Strtk.Binary.C46_convert32_wrong",
    "Strtk.Binary.C46_convert32_not_involution",
    "Strtk.Binary.C46_network_order_partial",
    "Strtk.Binary.C46_network_order_32_wrong",
    "Strtk.Binary.C46_both_hosts_partial",
    "Strtk.Binary.C46_there_and_back_partial",
    "Strtk.Binary.C46_swap32_wrong"
   ],
   "note": "Proved for 16 and 64 bits, on the wire and in memory, on little- and big-endian hosts. The 32-bit convert has its masks swapped: it loses two bytes (C46_convert32_wrong, C46_convert32_not_involution), so every number with a non-zero byte 0 or 2 comes out wrong (C46_swap32_wrong)."
  },
  {
   "property": "C47",
   "status": "partial",
   "theorems": [
    "Strtk.Binary.C47_write_room",
    "Strtk.Binary.C47_read_room",
    "Strtk.Binary.C47_vectors_read_back",
    "Strtk.Binary.C47_vector_read_as_deque",
    "Strtk.Binary.C47_write_read_partial",
    "Strtk.Binary.C47_write_succeeds",
    "Strtk.Binary.C47_pstr_too_long",
    "Strtk.Binary.C47_set_union",
    "Strtk.Binary.C47_long_string_lost",
    "Strtk.Binary.C47_tight_buffer_unreadable",
    "Strtk.Binary.C47_nested_accumulates",
    "Strtk.Binary.C47_empty_vector_undefined"
   ],
   "note": "A program of writes succeeds exactly when the buffer offers the room it needs, and reads give the same values back exactly when it offers the room they need, with no assumption about sizeof (C47_write_room, C47_read_room); without deques, lists and queues what was written is always read back (C47_vectors_read_back). Where elements are not smaller in the buffer than sizeof the room is the length of the serialised form (C47_write_succeeds, C47_write_read_partial). Reading into a non-empty set gives the union (C47_set_union). Negative theorems show why the rest is false: 2^32 characters, tight buffers, nested deques, empty POD vectors."
  },
  {
   "property": "C48",
   "status": "partial",
   "theorems": [
    "Strtk.Binary.C48_reader_history_partial",
    "Strtk.Binary.C48_writer_history_partial",
    "Strtk.Binary.C48_reader_pod",
    "Strtk.Binary.C48_writer_keeps_prefix",
    "Strtk.Binary.C48_mark_reset",
    "Strtk.Binary.C48_reset_to_mark",
    "Strtk.Binary.C48_field_size_wraps",
    "Strtk.Binary.C48_seek_int_min",
    "Strtk.Binary.C48_empty_vector_undefined",
    "Strtk.Binary.C48_rewind",
    "Strtk.Binary.C48_seek",
    "Strtk.Binary.C48_reset",
    "Strtk.Binary.C48_reader_array",
    "Strtk.Binary.C48_read_justified",
    "Strtk.Binary.C48_vector_refused",
    "Strtk.Binary.C48_pod_vector_refused"
   ],
   "note": "Proved for every history of calls; arguments: sizes of types below 2^31, field sizes below 2^63, no seek(INT_MIN), &v[0] of an empty vector harmless, right-padded fields excluded (C49). Each restriction has a counterexample."
  },
  {
   "property": "C49",
   "status": "partial",
   "theorems": [
    "Strtk.Binary.C49_padded_field_partial",
    "Strtk.Binary.C49_fails_unchanged",
    "Strtk.Binary.C49_right_padding_broken"
   ],
   "note": "Left padding, full-size and failing fields proved. Right padding of a non-empty shorter text always reads outside the string (C49_right_padding_broken)."
  },
  {
   "property": "C50",
   "status": "proved",
   "theorems": [
    "Strtk.Text.C50_center",
    "Strtk.Text.C50_right_align",
    "Strtk.Text.C50_left_align",
    "Strtk.Text.C50_remaining_string"
   ],
   "note": ""
  },
  {
   "property": "C51",
   "status": "partial",
   "theorems": [
    "Strtk.Text.C51_swap",
    "Strtk.Text.C51_remove_partial",
    "Strtk.Text.C51_insert_partial",
    "Strtk.Text.C51_remove_overlap",
    "Strtk.Text.C51_insert_overlap",
    "Strtk.Text.C51_insert_behind_end"
   ],
   "note": "swap proved outright. remove and insert copy between overlapping ranges with memcpy: correct if memcpy behaves like memmove, undefined by the standard except at the end (C51_remove_overlap, C51_insert_overlap); insert behind the end is not checked (C51_insert_behind_end)."
  },
  {
   "property": "C52",
   "status": "partial",
   "theorems": [
    "Strtk.Consec.C52_find_exactly",
    "Strtk.Consec.C52_find_atleast",
    "Strtk.Consec.C52_find_exactly_zero",
    "Strtk.Consec.C52_four_gigabytes",
    "Strtk.Consec.C52_stateful_past_end",
    "Strtk.Consec.C52_match_exactly",
    "Strtk.Consec.C52_match_atleast_partial",
    "Strtk.Consec.C52_match_atleast_wrong",
    "Strtk.Consec.C52_types",
    "Strtk.Consec.C52_split",
    "Strtk.Consec.C52_split_predicate",
    "Strtk.Consec.C52_split_n_partial",
    "Strtk.Consec.C52_split_n_one_too_many",
    "Strtk.Consec.C52_empty_runs",
    "Strtk.Consec.C52_split_strings",
    "Strtk.Consec.C52_split_predicate_strings",
    "Strtk.Consec.C52_split_n_strings_partial",
    "Strtk.Consec.C52_split_number",
    "Strtk.Consec.C52_words"
   ],
   "note": "Finding and splitting proved (ranges shorter than 2^31, n >= 1), the strings put out being given run by run over the maximal runs (C52_split_strings, C52_words), including the letter/digit/whitespace classes (C52_types). In ranges of a multiple of 4 GB nothing is found (C52_four_gigabytes); match_atleast_n misses runs that reach the end (C52_match_atleast_wrong), split_on_consecutive_n returns up to n+1 matches (C52_split_n_one_too_many), a stateful predicate can move the iterator past the end (C52_stateful_past_end)."
  },
  {
   "property": "C53",
   "status": "partial",
   "theorems": [
    "Strtk.Trie.C53_find_prefix_partial",
    "Strtk.Trie.C53_empty_prefix",
    "Strtk.Trie.C53_find_exact",
    "Strtk.Trie.C53_find_partial",
    "Strtk.Trie.C53_shared_value",
    "Strtk.Trie.C53_phantom_key"
   ],
   "note": "find_prefix is exact for every non-empty key. find() is exact only for prefix trees in which no two keys differ in just their last character: keys sharing all but the last character share one value slot (C53_shared_value), and a key never inserted can be reported (C53_phantom_key). The empty prefix is never found (C53_empty_prefix)."
  },
  {
   "property": "C54",
   "status": "proved",
   "theorems": [
    "Strtk.Bloom.C54_exact",
    "Strtk.Bloom.C54_empty",
    "Strtk.Bloom.C54_no_false_negatives",
    "Strtk.Bloom.C54_new",
    "Strtk.Bloom.C54_ranges",
    "Strtk.Bloom.C54_insert_range",
    "Strtk.Bloom.C54_hash_count",
    "Strtk.Bloom.C54_table_size",
    "Strtk.Bloom.C54_odd_table_size",
    "Strtk.Bloom.C54_copy_undefined"
   ],
   "note": "No false negatives proved for every history on table sizes that are a positive multiple of 8 bits; C54_exact says exactly which keys are reported (all bits set by the inserted ones). A minimum_size that is not a multiple of 8 leads to out-of-range indices (C54_odd_table_size); the copy constructor, and so & | ^, read uninitialised members (C54_copy_undefined)."
  },
  {
   "property": "C55",
   "status": "partial",
   "theorems": [
    "Strtk.Bloom.C55_compress_partial",
    "Strtk.Bloom.C55_overflow",
    "Strtk.Bloom.C55_clear_after_compress"
   ],
   "note": "Proved while each compression removes at most half of the table. Removing more writes behind the new table (C55_overflow); clear() after a compression writes behind it too (C55_clear_after_compress)."
  },
  {
   "property": "C56",
   "status": "partial",
   "theorems": [
    "Strtk.Bloom.C56_equal",
    "Strtk.Bloom.C56_equal_histories",
    "Strtk.Bloom.C56_read_back",
    "Strtk.Bloom.C56_round_trip_partial",
    "Strtk.Bloom.C56_large_truncated",
    "Strtk.Bloom.C56_history_fits"
   ],
   "note": "Round trip and operator== proved for tables below 4 GB; the length field is 32 bits, larger tables are truncated (C56_large_truncated)."
  },
  {
   "property": "C57",
   "status": "partial",
   "theorems": [
    "Strtk.Hash.C57_exact",
    "Strtk.Hash.C57_fold_partial",
    "Strtk.Hash.C57_ignored",
    "Strtk.Hash.C57_collisions",
    "Strtk.Hash.C57_step_value",
    "Strtk.Hash.C57_value_partial"
   ],
   "note": "Determinism and the exact value are proved for every length, the value of a step over the natural numbers (C57_step_value); a fold over all bytes only for lengths that are a multiple of 64 plus 0, 2, 4, 8, 16, 32. For other lengths trailing bytes are ignored (C57_ignored), so distinct texts collide (C57_collisions)."
  },
  {
   "property": "C58",
   "status": "proved",
   "theorems": [
    "Strtk.Hash.C58_memcmp_n"
   ],
   "note": ""
  },
  {
   "property": "C59",
   "status": "partial",
   "theorems": [
    "Strtk.KeyValue.C59_strict",
    "Strtk.KeyValue.C59_last_value",
    "Strtk.KeyValue.C59_strict_failure",
    "Strtk.KeyValue.C59_lenient",
    "Strtk.KeyValue.C59_uint_find",
    "Strtk.KeyValue.C59_number_find",
    "Strtk.KeyValue.C59_string_find",
    "Strtk.KeyValue.C59_uint_register",
    "Strtk.KeyValue.C59_string_register",
    "Strtk.KeyValue.C59_number_register",
    "Strtk.KeyValue.C59_empty_key",
    "Strtk.KeyValue.C59_number_confusion"
   ],
   "note": "Exact description of success, failure and failure count for every text, registration and converter. Numeric keys depart from the property: an empty key is key 0 (C59_empty_key), in key_map<unsigned int> a malformed key is 4294967295 and larger numbers wrap (C59_number_confusion)."
  },
  {
   "property": "C60",
   "status": "proved",
   "theorems": [
    "Strtk.Grid.C60_rep_shows",
    "Strtk.Grid.C60_load",
    "Strtk.Grid.C60_load_default",
    "Strtk.Grid.C60_load_compress"
   ],
   "note": "Texts shorter than 2^32 - 1 bytes. The row split option is ignored by the code: empty lines are always skipped, which is what the property asks for."
  },
  {
   "property": "C61",
   "status": "proved",
   "theorems": [
    "Strtk.Grid.C61_remove_row",
    "Strtk.Grid.C61_remove_row_if",
    "Strtk.Grid.C61_history",
    "Strtk.Grid.C61_history_loaded"
   ],
   "note": "Any history of remove_row, remove_row_if, remove_token_if and the enforce functions. min/max column counts are not refreshed by remove_row and remove_row_if."
  },
  {
   "property": "C62",
   "status": "proved",
   "theorems": [
    "Strtk.Grid.C62_remove_token_if"
   ],
   "note": "remove_token_if; histories are covered by C61_history."
  },
  {
   "property": "C63",
   "status": "partial",
   "theorems": [
    "Strtk.Grid.C63_enforce_columns_partial",
    "Strtk.Grid.C63_enforce_min_max_partial",
    "Strtk.Grid.C63_range_ignored",
    "Strtk.Grid.C63_counterexample"
   ],
   "note": "Whole-grid ranges proved; for other ranges the code ignores the range (C63_range_ignored, C63_counterexample)."
  },
  {
   "property": "C64",
   "status": "partial",
   "theorems": [
    "Strtk.Grid.C64_extract_columns",
    "Strtk.Grid.C64_extract_columns_rejected",
    "Strtk.Grid.C64_extract_column_partial",
    "Strtk.Grid.C64_extract_column_checked",
    "Strtk.Grid.C64_extract_two_columns",
    "Strtk.Grid.C64_extract_two_columns_rejected",
    "Strtk.Grid.C64_plain_iterator"
   ],
   "note": "Appending output iterators (inserters) proved, for one to five columns. The iterator is passed on by value, so plain iterators are never advanced (C64_plain_iterator)."
  },
  {
   "property": "C65",
   "status": "partial",
   "theorems": [
    "Strtk.Grid.C65_join_column_if_last",
    "Strtk.Grid.C65_join_row_partial",
    "Strtk.Grid.C65_last_row",
    "Strtk.Grid.C65_join_row_exact",
    "Strtk.Grid.C65_no_row",
    "Strtk.Grid.C65_join_column",
    "Strtk.Grid.C65_counterexample",
    "Strtk.Refused.C65_join_column_if"
   ],
   "note": "Rows other than the last, without empty tokens. The last row loses its last token (C65_last_row, C65_counterexample); no delimiter follows an empty token (C65_join_row_exact); join_column with a predicate omits the delimiter before the last token (C65_join_column_if_last; C65_join_column_if is the text for all predicates and columns)."
  },
  {
   "property": "C66",
   "status": "partial",
   "theorems": [
    "Strtk.Grid.C66_partition_partial",
    "Strtk.Grid.C66_tiles",
    "Strtk.Grid.C66_splits_at_signals_partial",
    "Strtk.Grid.C66_counterexample"
   ],
   "note": "Consecutive, disjoint, covering, stop at the first false: proved. A signalling row that directly follows the start of a range, or only signalling rows, does not split (C66_counterexample)."
  },
  {
   "property": "C67",
   "status": "partial",
   "theorems": [
    "Strtk.FileIO.C67_copy_partial",
    "Strtk.FileIO.C67_copy_full_disk",
    "Strtk.FileIO.C67_copy_onto_itself",
    "Strtk.FileIO.C67_copy_failing_empties",
    "Strtk.FileIO.C67_copy_unwritable",
    "Strtk.FileIO.C67_concatenate_partial",
    "Strtk.FileIO.C67_concatenate_onto_first",
    "Strtk.FileIO.C67_identical",
    "Strtk.FileIO.C67_write_load_partial",
    "Strtk.FileIO.C67_load",
    "Strtk.FileIO.C67_load_missing",
    "Strtk.FileIO.C67_load_buffer",
    "Strtk.FileIO.C67_exists_size",
    "Strtk.FileIO.C67_concatenate_fails",
    "Strtk.FileIO.C67_write_unwritable"
   ],
   "note": "Distinct file names and a disk with room. Copying a file onto itself or a failing copy empties the destination, a full disk is reported as success, concatenate(a,b,a) loses a: proved as negative results. identical/load/exists/size proved outright."
  },
  {
   "property": "C68",
   "status": "partial",
   "theorems": [
    "Strtk.Lines.C68_all_lines",
    "Strtk.Lines.C68_first_n_partial",
    "Strtk.Lines.C68_zero_is_all",
    "Strtk.Lines.C68_resume",
    "Strtk.Lines.C68_conditional",
    "Strtk.Lines.C68_conditional_n_partial",
    "Strtk.Lines.C68_file",
    "Strtk.Lines.C68_tokens",
    "Strtk.Lines.C68_read_line_as_value"
   ],
   "note": "n >= 1 for the _n versions: with n = 0 they process every line (C68_zero_is_all). Everything else proved."
  },
  {
   "property": "C69",
   "status": "partial",
   "theorems": [
    "Strtk.Guards.C69_equal",
    "Strtk.Guards.C69_within_partial",
    "Strtk.Guards.C69_empty_not_within_empty",
    "Strtk.Guards.C69_begins_ends",
    "Strtk.Guards.C69_begins_ends_partial",
    "Strtk.Guards.C69_proper_prefix_refused",
    "Strtk.Guards.C69_like"
   ],
   "note": "equal/notequal proved; within/notwithin except for two empty texts; begins_with/ends_with in fact decide equality (C69_begins_ends), so longer texts are refused (C69_proper_prefix_refused)."
  },
  {
   "property": "C70",
   "status": "partial",
   "theorems": [
    "Strtk.Guards.C70_expect",
    "Strtk.Guards.C70_iexpect_partial",
    "Strtk.Guards.C70_iexpect_high",
    "Strtk.Guards.C70_inrange",
    "Strtk.Guards.C70_inrange_nan",
    "Strtk.Guards.C70_like",
    "Strtk.Guards.C70_fill_array",
    "Strtk.Guards.C70_fill_array_overflow",
    "Strtk.Guards.C70_consumes"
   ],
   "note": "expect, inrange (linear orders), fill_array proved; iexpect for 7-bit texts (C70_iexpect_high: undefined behaviour otherwise). NaN passes every range (C70_inrange_nan)."
  },
  {
   "property": "C71",
   "status": "partial",
   "theorems": [
    "Strtk.Misc.C71_result",
    "Strtk.Misc.C71_empty",
    "Strtk.Misc.C71_least_rotation_partial",
    "Strtk.Misc.C71_equal_forms",
    "Strtk.Misc.C71_rotations_partial",
    "Strtk.Misc.C71_not_least"
   ],
   "note": "For every non-empty range the result is a rotation of it, and which one is characterised exactly (C71_result); it is the least rotation, and equal exactly for rotations of each other, when no suffix that begins with a smallest element also occurs earlier. Otherwise it need not be the least one (C71_not_least: 121). An empty range is undefined behaviour."
  },
  {
   "property": "C72",
   "status": "partial",
   "theorems": [
    "Strtk.Misc.C72_first_non_repeated_partial",
    "Strtk.Misc.C72_pointer_partial",
    "Strtk.Misc.C72_high_bytes"
   ],
   "note": "Proved for 7-bit text. A byte above 0x7F is sign-extended and indexes the table far outside (C72_high_bytes)."
  },
  {
   "property": "C73",
   "status": "proved",
   "theorems": [
    "Strtk.Columns.C73_parse_columns",
    "Strtk.Columns.C73_missing_column",
    "Strtk.Columns.C73_bad_column",
    "Strtk.Columns.C73_decreasing_columns",
    "Strtk.Columns.C73_selector"
   ],
   "note": "parse_columns: success, missing column, non-converting column, decreasing columns; column_selector: delivery. The selector object keeps its error count private, so it cannot report failure."
  },
  {
   "property": "C74",
   "status": "partial",
   "theorems": [
    "Strtk.Guards.C74_inverted",
    "Strtk.Guards.C74_never_as_documented",
    "Strtk.Guards.C74_split_partial",
    "Strtk.Guards.C74_non_empty"
   ],
   "note": "The flag is inverted for every token (C74_inverted, C74_never_as_documented); what holds is C74_split_partial."
  },
  {
   "property": "C75",
   "status": "partial",
   "theorems": [
    "Strtk.Misc.C75_make_string",
    "Strtk.Misc.C75_clear_array",
    "Strtk.Misc.C75_set_array",
    "Strtk.Misc.C75_set_array_arrays_partial",
    "Strtk.Misc.C75_set_array_arrays_over_read"
   ],
   "note": "make_string, clear_array and set_array from a string are proved for all inputs. set_array from an array is right only for equal sizes: a shorter source is over-read (C75_set_array_arrays_over_read)."
  },
  {
   "property": "C76",
   "status": "proved",
   "theorems": [
    "Strtk.Sinks.C76_hex_to_string",
    "Strtk.Sinks.C76_hex_string_round_trip",
    "Strtk.Sinks.C76_odd_invalid"
   ],
   "note": ""
  },
  {
   "property": "C77",
   "status": "partial",
   "theorems": [
    "Strtk.Sinks.C77_base64_sink_never_valid",
    "Strtk.Sinks.C77_base64_sink_overflows",
    "Strtk.Sinks.C77_base64_sink_short_ub",
    "Strtk.Sinks.C77_base64_sink_alphabet",
    "Strtk.Sinks.C77_base64_sink_partial",
    "Strtk.Sinks.C77_base64_sink_stores"
   ],
   "note": "False of the code: the sink never reports a valid conversion, writes past the number for long texts and reads past the text for short ones (all proved). C77_base64_sink_partial says exactly what every assignment does: which texts are refused, where the bytes go, and when it writes outside the number."
  },
  {
   "property": "C78",
   "status": "proved",
   "theorems": [
    "Strtk.Sinks.C78_truncated",
    "Strtk.Sinks.C78_truncated_fixed",
    "Strtk.Sinks.C78_truncated_short",
    "Strtk.Sinks.C78_truncated_int"
   ],
   "note": ""
  },
  {
   "property": "C79",
   "status": "proved",
   "theorems": [
    "Strtk.Parse.C79_multiple_char_predicate",
    "Strtk.Parse.C79_single_predicate",
    "Strtk.Parse.C79_multiple_predicate",
    "Strtk.Parse.C79_delimiter_string"
   ],
   "note": ""
  },
  {
   "property": "C80",
   "status": "proved",
   "theorems": [
    "Strtk.Join.C80_iota"
   ],
   "note": ""
  },
  {
   "property": "C81",
   "status": "proved",
   "theorems": [
    "Strtk.Random.C81_exact_permutation",
    "Strtk.Random.C81_range_refused",
    "Strtk.Random.C81_every_permutation",
    "Strtk.Random.C81_exact_combination",
    "Strtk.Random.C81_every_combination",
    "Strtk.Random.C81_one_out_of_bounds",
    "Strtk.Random.C81_random_permutation",
    "Strtk.Random.C81_every_permutation_rounded",
    "Strtk.Random.C81_random_combination",
    "Strtk.Random.C81_every_combination_rounded"
   ],
   "note": "In p-bit floating-point arithmetic with rounding (p = 53 for double) for ranges of at most 2^p elements (2^p/8 for reachability of every result), and in exact arithmetic. The code's own range test also lets a generator through that returns exactly 1.0, which makes it read behind the deque (C81_one_out_of_bounds)."
  },
  {
   "property": "C82",
   "status": "proved",
   "theorems": [
    "Strtk.Random.C82_select_k",
    "Strtk.Random.C82_select_1",
    "Strtk.Random.C82_select_k_rounded",
    "Strtk.Random.C82_select_1_rounded"
   ],
   "note": "In exact arithmetic and in p-bit floating-point arithmetic with rounding, numbers in [0,1)."
  },
  {
   "property": "C83",
   "status": "partial",
   "theorems": [
    "Strtk.Random.C83_generate_random_data_partial",
    "Strtk.Random.C83_short_buffer_ub"
   ],
   "note": "Lengths 0 and >= 4. For lengths 1..3 the code writes in front of the buffer (C83_short_buffer_ub). Alignment is not modelled."
  },
  {
   "property": "C84",
   "status": "proved",
   "theorems": [
    "Strtk.Text.C84_classes",
    "Strtk.Text.C84_is_all"
   ],
   "note": ""
  },
  {
   "property": "C85",
   "status": "partial",
   "theorems": [
    "Strtk.Grid.C85_quotes_partial",
    "Strtk.Grid.C85_quotes_compress_partial",
    "Strtk.Grid.C85_unbalanced",
    "Strtk.Grid.C85_trim_partial",
    "Strtk.Grid.C85_trim_reads_past_end",
    "Strtk.Grid.C85_trim_inverts"
   ],
   "note": "Balanced lines (even number of double quotes per line), default and compress options; trimming for texts that end with a row delimiter. Counterexamples for the rest: C85_unbalanced, C85_trim_reads_past_end, C85_trim_inverts."
  },
  {
   "property": "C86",
   "status": "partial",
   "theorems": [
    "Strtk.Grid.C86_column_widths",
    "Strtk.Grid.C86_accumulate_column_if",
    "Strtk.Grid.C86_for_each_row",
    "Strtk.Grid.C86_column_width",
    "Strtk.Grid.C86_accumulate_row",
    "Strtk.Grid.C86_accumulate_no_row",
    "Strtk.Grid.C86_accumulate_column_partial",
    "Strtk.Grid.C86_counts_missing_rows"
   ],
   "note": "The count returned by accumulate_column includes rows without the column (C86_counts_missing_rows); everything else proved, including the overloads with a row predicate and all column widths. Sums are unbounded integers here; C165 treats the types of the machine."
  },
  {
   "property": "C87",
   "status": "partial",
   "theorems": [
    "Strtk.Grid.C87_row_parse_partial",
    "Strtk.Grid.C87_reads_next_row",
    "Strtk.Grid.C87_parse_range"
   ],
   "note": "Columns inside the row proved, and parse(range,...) outright. Other columns read the next row's tokens, or behind the token list in the last row (C87_reads_next_row)."
  },
  {
   "property": "C88",
   "status": "partial",
   "theorems": [
    "Strtk.FileIO.C88_round_trip_partial",
    "Strtk.FileIO.C88_read_sound",
    "Strtk.FileIO.C88_array_flag_inverted",
    "Strtk.FileIO.C88_array_write_flag",
    "Strtk.FileIO.C88_container_no_return",
    "Strtk.FileIO.C88_container_bad_stream",
    "Strtk.FileIO.C88_read_sequence"
   ],
   "note": "Round trip for values, arrays and sequences when the disk has room; the array overloads return the inverted flag and the container write_pod lacks a return statement (negative theorems)."
  },
  {
   "property": "C89",
   "status": "proved",
   "theorems": [
    "Strtk.FileIO.C89_memory_round_trip",
    "Strtk.FileIO.C89_overflow"
   ],
   "note": "Given room in the buffer; there is no bound check (C89_overflow)."
  },
  {
   "property": "C90",
   "status": "proved",
   "theorems": [
    "Strtk.FileIO.C90_read_at_offset",
    "Strtk.FileIO.C90_read_at_offset_string",
    "Strtk.FileIO.C90_stream"
   ],
   "note": "Buffer and string versions."
  },
  {
   "property": "C91",
   "status": "proved",
   "theorems": [
    "Strtk.Lines.C91_load",
    "Strtk.Lines.C91_write",
    "Strtk.Lines.C91_round_trip"
   ],
   "note": "Sequences, queues and stacks by their element order; sets, multisets and priority_queue are loaded by the loops of C115."
  },
  {
   "property": "C92",
   "status": "partial",
   "theorems": [
    "Strtk.Guards.C92_copies_partial",
    "Strtk.Guards.C92_dangling"
   ],
   "note": "Copies work while the original lives; afterwards they read freed memory (C92_dangling)."
  },
  {
   "property": "C93",
   "status": "partial",
   "theorems": [
    "Strtk.Guards.C93_trim_partial",
    "Strtk.Guards.C93_trim_string_partial",
    "Strtk.Guards.C93_trim_other_mode",
    "Strtk.Guards.C93_trim_trailing_keeps_one",
    "Strtk.Guards.C93_case"
   ],
   "note": "trim_trailing keeps one character of a token of removable characters only (C93_trim_trailing_keeps_one); the rest proved."
  },
  {
   "property": "C94",
   "status": "partial",
   "theorems": [
    "Strtk.Guards.C94_ranges",
    "Strtk.Guards.C94_ranges_partial",
    "Strtk.Guards.C94_prefix_matches",
    "Strtk.Guards.C94_continuation_matches",
    "Strtk.Guards.C94_beyond",
    "Strtk.Guards.C94_ranges_icase",
    "Strtk.Guards.C94_strings_not_blocked",
    "Strtk.Guards.C94_strings_icase",
    "Strtk.Guards.C94_strings",
    "Strtk.Guards.C94_skip"
   ],
   "note": "Case-insensitive filter exact on 7-bit texts; the case-sensitive one matches prefixes and reads beyond the token, and the string overload with allow=false forwards everything (negative theorems)."
  },
  {
   "property": "C95",
   "status": "proved",
   "theorems": [
    "Strtk.Inserters.C95_containers",
    "Strtk.Misc.C95_min_max"
   ],
   "note": "An empty range is undefined behaviour."
  },
  {
   "property": "C96",
   "status": "partial",
   "theorems": [
    "Strtk.Handles.C96_values_partial",
    "Strtk.Handles.C96_copy_while_original_partial",
    "Strtk.Handles.C96_copy_dangles",
    "Strtk.Handles.C96_assign_unbound"
   ],
   "note": "Handles bound directly, and copies used while the original is alive and unchanged, deliver to the right variable (C96_values_partial, C96_copy_while_original_partial). False in general: the copy constructor copies the pointer into the original's internal buffer, so a copy dangles when the original dies (C96_copy_dangles), and assigning an unbound handle does not unbind (C96_assign_unbound)."
  },
  {
   "property": "C97",
   "status": "partial",
   "theorems": [
    "Strtk.Handles.C97_attribute_partial",
    "Strtk.Handles.C97_default_class",
    "Strtk.Handles.C97_default_scalar",
    "Strtk.Handles.C97_parse_not_remembered",
    "Strtk.Handles.C97_parse"
   ],
   "note": "Proved for histories of assignments to an attribute constructed with a value (C97_attribute_partial). False otherwise: a parse changes the value without updating the previous one (C97_parse_not_remembered), and a default-constructed attribute of arithmetic type reads an indeterminate value at its first assignment (C97_default_scalar)."
  },
  {
   "property": "C98",
   "status": "proved",
   "theorems": [
    "Strtk.Boxes.C98_key_list",
    "Strtk.Boxes.C98_key_set",
    "Strtk.Boxes.C98_key_multiset"
   ],
   "note": "Sequences, sets and multisets. The std::queue overload does not compile."
  },
  {
   "property": "C99",
   "status": "partial",
   "theorems": [
    "Strtk.Boxes.C99_value_list_partial",
    "Strtk.Boxes.C99_value_suffix",
    "Strtk.Boxes.C99_incomplete"
   ],
   "note": "Complete if multimap::find returns the first entry of the key, as common implementations do (C99_value_list_partial); for every result the standard allows, an end piece of the key's values and nothing else (C99_value_suffix). The standard allows a find that makes the list incomplete (C99_incomplete)."
  },
  {
   "property": "C100",
   "status": "proved",
   "theorems": [
    "Strtk.Boxes.C100_delete_all",
    "Strtk.Boxes.C100_needs_owning",
    "Strtk.Boxes.C100_delete_if"
   ],
   "note": "With the ownership condition, which is necessary (C100_needs_owning)."
  },
  {
   "property": "C101",
   "status": "proved",
   "theorems": [
    "Strtk.Boxes.C101_extract_unique"
   ],
   "note": "std::sort is taken as a sort of a total order."
  },
  {
   "property": "C102",
   "status": "partial",
   "theorems": [
    "Strtk.Real.C102_decimal_partial",
    "Strtk.Real.C102_no_point",
    "Strtk.Real.C102_skips_a_digit",
    "Strtk.Real.C102_accepts_only",
    "Strtk.Real.C102_refused",
    "Strtk.Real.C102_in_text",
    "Strtk.Real.C102_reads_on"
   ],
   "note": "Numbers written with a point, exact arithmetic. For a number without a point the iterator is moved behind the end of the text (C102_no_point): inside a larger text the next character is taken for the point and the following ones for the fraction (C102_reads_on), while inside its token the sink is independent of the surrounding text (C102_in_text); more than int_size digits make the code skip one character instead of refusing (C102_skips_a_digit)."
  },
  {
   "property": "C103",
   "status": "partial",
   "theorems": [
    "Strtk.Parse.C103_configuration",
    "Strtk.Parse.C103_unbound",
    "Strtk.Parse.C103_all",
    "Strtk.Parse.C103_count",
    "Strtk.Parse.C103_bound_constructor",
    "Strtk.Parse.C103_bound_constructor_counted",
    "Strtk.Parse.C103_bound_constructor_default",
    "Strtk.Parse.C103_option_lost"
   ],
   "note": "Proved for sinks constructed from delimiters. The constructor that takes the container leaves the count uninitialised, so parsing with it is undefined unless count() is called (C103_bound_constructor); the option given to the constructor is lost when a container is bound without one (C103_option_lost)."
  },
  {
   "property": "C104",
   "status": "partial",
   "theorems": [
    "Strtk.ExtString.C104_history_partial",
    "Strtk.ExtString.C104_build",
    "Strtk.ExtString.C104_operators",
    "Strtk.ExtString.C104_sub",
    "Strtk.ExtString.C104_mult",
    "Strtk.ExtString.C104_times_disagrees",
    "Strtk.ExtString.C104_all_chars"
   ],
   "note": "All calls but *= behave as described (C104_history_partial covers every history that keeps the stated conditions, with *= n giving n+1 copies); C104_times_disagrees proves that s *= n differs from s * n for every non-empty s. remove_trailing needs a character that stays (C10)."
  },
  {
   "property": "C105",
   "status": "partial",
   "theorems": [
    "Strtk.Size.C105_container",
    "Strtk.Size.C105_range_partial",
    "Strtk.Size.C105_range_disagrees"
   ],
   "note": "Right for containers with every bound (C105_container) and for ranges with bounds below 2^63 (C105_range_partial); C105_range_disagrees proves that with larger bounds the range calls give the opposite answer, because the bound is converted to a signed type."
  },
  {
   "property": "C106",
   "status": "partial",
   "theorems": [
    "Strtk.Adapter.C106_view",
    "Strtk.Adapter.C106_write",
    "Strtk.Adapter.C106_convert_partial",
    "Strtk.Adapter.C106_convert_disagrees",
    "Strtk.Adapter.C106_unchecked"
   ],
   "note": "Size, elements, as_string and writes are right (C106_view, C106_write); the conversion to std::string is right for const char only (C106_convert_partial) and gives an empty text for char and unsigned char (C106_convert_disagrees)."
  },
  {
   "property": "C107",
   "status": "partial",
   "theorems": [
    "Strtk.Grid.C107_explicit",
    "Strtk.Grid.C107_open_end_partial",
    "Strtk.Grid.C107_open_end_rejected"
   ],
   "note": "Explicit ranges proved. range(a) uses the number of tokens as its upper bound, so it is accepted only if every row has one column (C107_open_end_rejected)."
  },
  {
   "property": "C108",
   "status": "partial",
   "theorems": [
    "Strtk.Grid.C108_history_partial",
    "Strtk.Grid.C108_failed_load_frees_callers_buffer",
    "Strtk.Grid.C108_failed_load_dangles",
    "Strtk.Grid.C108_no_memory_frees_callers_buffer",
    "Strtk.Grid.C108_no_memory_dangles"
   ],
   "note": "Histories whose files can be read and are not empty. A failed load deletes a buffer of the caller (C108_failed_load_frees_callers_buffer) or leaves the rows pointing into a deleted one (C108_failed_load_dangles); a load that runs out of memory does the same while the grid still calls itself loaded (C108_no_memory_frees_callers_buffer, C108_no_memory_dangles)."
  },
  {
   "property": "C109",
   "status": "partial",
   "theorems": [
    "Strtk.Grid.C109_row_text",
    "Strtk.Grid.C109_parse_checked",
    "Strtk.Grid.C109_for_each_column",
    "Strtk.Grid.C109_parse_n_partial",
    "Strtk.Grid.C109_parse_n_fails"
   ],
   "note": "Everything proved except that parse_n returns 0 when a token does not convert although values were appended (C109_parse_n_fails)."
  },
  {
   "property": "C110",
   "status": "partial",
   "theorems": [
    "Strtk.Inserters.C110_history_partial",
    "Strtk.Inserters.C110_assign_overwrites",
    "Strtk.Inserters.C110_function_calls",
    "Strtk.Inserters.C110_function_copies"
   ],
   "note": "Histories with assignments only between inserters of the same container. Assigning an inserter of another container overwrites the contents of its own container (C110_assign_overwrites). Functions that write with *(out++) = x call a copy of a function object each time, so its state is lost (C110_function_copies)."
  },
  {
   "property": "C111",
   "status": "proved",
   "theorems": [
    "Strtk.Inserters.C111_count_consecutive_duplicates"
   ],
   "note": ""
  },
  {
   "property": "C112",
   "status": "proved",
   "theorems": [
    "Strtk.Scope.C112_scoped_restore"
   ],
   "note": "Assignments of T are assumed not to throw."
  },
  {
   "property": "C113",
   "status": "partial",
   "theorems": [
    "Strtk.Number.C113_type_length_partial",
    "Strtk.Number.C113_long_too_short"
   ],
   "note": "All types except long and unsigned long, which are taken to have 32 bits (C113_long_too_short)."
  },
  {
   "property": "C114",
   "status": "partial",
   "theorems": [
    "Strtk.Split.C114_history_partial",
    "Strtk.Split.C114_assign_mixes",
    "Strtk.Split.C114_dangling",
    "Strtk.Split.C114_advance"
   ],
   "note": "Proved for all histories in which assignments are between tokenizers with the same predicate and predicates outlive tokenizers. False otherwise: operator= copies the cached first token but not the predicate (C114_assign_mixes), and the predicate is held by reference (C114_dangling)."
  },
  {
   "property": "C115",
   "status": "proved",
   "theorems": [
    "Strtk.Targets.C115_parse",
    "Strtk.Targets.C115_parse_any_option",
    "Strtk.Targets.C115_parse_n",
    "Strtk.Targets.C115_parse_tail",
    "Strtk.Targets.C115_load",
    "Strtk.Targets.C115_no_file",
    "Strtk.Targets.C115_row",
    "Strtk.Targets.C115_read_pod",
    "Strtk.Targets.C115_read_pod_file",
    "Strtk.Targets.C115_push_back",
    "Strtk.Targets.C115_clear",
    "Strtk.Targets.C115_remove_empty"
   ],
   "note": "For a linear order as comparator; the standard containers themselves (insert, push, front, top, pop) are modelled by their specification."
  },
  {
   "property": "C116",
   "status": "proved",
   "theorems": [
    "Strtk.Permute.C116_for_each_permutation",
    "Strtk.Permute.C116_not_sorted",
    "Strtk.Permute.C116_conditional"
   ],
   "note": "std::next_permutation is modelled by its algorithm and proved to give the next arrangement. The function is assumed not to change the range. C116_not_sorted: from an unsorted range some arrangements are never visited."
  },
  {
   "property": "C117",
   "status": "proved",
   "theorems": [
    "Strtk.Timer.C117_timer",
    "Strtk.Timer.C117_clock_set_back",
    "Strtk.Timer.C117_scoped"
   ],
   "note": "A clock set back by less than a second makes the timer report a number just below 2^64 (C117_clock_set_back). The conversion to seconds is in C177; the Windows branch is not modelled."
  },
  {
   "property": "C118",
   "status": "partial",
   "theorems": [
    "Strtk.Trie.C118_tries_partial",
    "Strtk.Trie.C118_copy_deleted_twice",
    "Strtk.Trie.C118_copy_shares",
    "Strtk.Trie.C118_assign_leaks"
   ],
   "note": "Proved for programs that copy and assign only tries into which nothing was inserted yet. The class has only the compiler's copy operations: a copy of a filled trie shares its nodes (C118_copy_shares) and they are deleted twice (C118_copy_deleted_twice); assigning to a filled trie loses its nodes (C118_assign_leaks)."
  },
  {
   "property": "C119",
   "status": "partial",
   "theorems": [
    "Strtk.Combi.C119_combination_iterator_partial",
    "Strtk.Combi.C119_copies_follow",
    "Strtk.Combi.C119_post_increment_skips",
    "Strtk.Combi.C119_empty_range",
    "Strtk.Combi.C119_too_large"
   ],
   "note": "Non-empty ranges. Copies share the range, so the value of it++ shows the combination after the step and equals the moved iterator (C119_copies_follow, C119_post_increment_skips); over an empty range the one empty combination is never visited (C119_empty_range)."
  },
  {
   "property": "C120",
   "status": "partial",
   "theorems": [
    "Strtk.Bloom.C120_optimal_partial",
    "Strtk.Bloom.C120_probability",
    "Strtk.Bloom.C120_zero_probability",
    "Strtk.Bloom.C120_probability_above_one",
    "Strtk.Bloom.C120_default_limits",
    "Strtk.Bloom.C120_one_bit_table"
   ],
   "note": "Probabilities strictly between 0 and 1, requirement below 2^64-8 bits, in real arithmetic (the rounding errors of double are C181). When the requirement truncates to a multiple of eight the table can be up to one bit short (C120_probability). A probability of 0, above 1 or NaN is accepted and leads to an undefined conversion (C120_zero_probability, C120_probability_above_one); with default limits a requirement below one bit gives a one-bit table whose use writes out of bounds (C120_default_limits, C120_one_bit_table)."
  },
  {
   "property": "C121",
   "status": "partial",
   "theorems": [
    "Strtk.Split.Regex.C121_split_regex",
    "Strtk.Split.Regex.C121_split_regex_n_partial",
    "Strtk.Split.Regex.C121_zero_delivers_one"
   ],
   "note": "The engine's matches are an argument (boost is not part of the repository). With token_count 0 one token is delivered (C121_zero_delivers_one)."
  },
  {
   "property": "C122",
   "status": "partial",
   "theorems": [
    "Strtk.Real.C122_macros_partial",
    "Strtk.Real.C122_lut_high_byte"
   ],
   "note": "Proved for all texts without strtk_use_lut and for 7-bit texts with it; with it a byte from 0x80 on behind digits reads in front of the table (C122_lut_high_byte)."
  },
  {
   "property": "C123",
   "status": "proved",
   "theorems": [
    "Strtk.Bloom.C123_hash_value",
    "Strtk.Bloom.C123_hash_every_key",
    "Strtk.Bloom.C123_hash_injective",
    "Strtk.Bloom.C123_hash_collision",
    "Strtk.Bloom.C123_salts",
    "Strtk.Bloom.C123_salts_many"
   ],
   "note": "The hash is proved equal to an arithmetic specification on natural numbers; injectivity for keys of one, two and four bytes. Keys of eight bytes do collide under salts below eight (C123_hash_collision). Little-endian host; unaligned reads through casted pointers are taken as reads of bytes."
  },
  {
   "property": "C124",
   "status": "proved",
   "theorems": [
    "Strtk.Real.C124_ten_digits",
    "Strtk.Real.C124_double_error",
    "Strtk.Real.C124_lost",
    "Strtk.Real.C124_long_integers",
    "Strtk.Real.C124_integers",
    "Strtk.Real.C124_special"
   ],
   "note": "The output format of the stream is the standard library's and is specified (%.10g). The arithmetic of the conversion back has no overflow or underflow in the range of the statement; the sign of zero and nan is not modelled."
  },
  {
   "property": "C125",
   "status": "partial",
   "theorems": [
    "Strtk.Binary.C125_through_file_room",
    "Strtk.Binary.C125_through_file_partial",
    "Strtk.Binary.C125_load_inside",
    "Strtk.Binary.C125_short_file",
    "Strtk.Binary.C125_load_again"
   ],
   "note": "Round trip and bounds proved (disk with room, types as in C47). A file that is too short is not reported: the call returns true and the rest of the buffer is stale (C125_short_file)."
  },
  {
   "property": "C126",
   "status": "partial",
   "theorems": [
    "Strtk.Programs.C126_ipv4_exact",
    "Strtk.Programs.C126_ipv4_printed",
    "Strtk.Programs.C126_ipv4_partial",
    "Strtk.Programs.C126_ipv4_int",
    "Strtk.Programs.C126_ipv4_empty",
    "Strtk.Programs.C126_ipv4_wraps"
   ],
   "note": "The parser is decided for every text (C126_ipv4_exact); the property holds for up to nine digits per piece and four non-empty pieces, and the round trip for every address. Pieces behind the fourth are ignored, empty pieces are taken as 0 and numbers wrap modulo 2^32 (all proved)."
  },
  {
   "property": "C127",
   "status": "proved",
   "theorems": [
    "Strtk.Programs.C127_hexview",
    "Strtk.Programs.C127_hexview_faithful"
   ],
   "note": "The output itself is given for every input."
  },
  {
   "property": "C128",
   "status": "proved",
   "theorems": [
    "Strtk.Programs.C128_wordfreq",
    "Strtk.Programs.C128_sum"
   ],
   "note": "Lines, delimiters, splitting, case conversion and the map are those of the other properties; the printing of the result is not modelled."
  },
  {
   "property": "C129",
   "status": "proved",
   "theorems": [
    "Strtk.Parse.C129_parse_line",
    "Strtk.Parse.C129_end",
    "Strtk.Parse.C129_fields",
    "Strtk.Parse.C129_containers",
    "Strtk.Parse.C129_one_line_per_call"
   ],
   "note": "Streams fail only at the end of the text."
  },
  {
   "property": "C130",
   "status": "partial",
   "theorems": [
    "Strtk.Parse.C130_sequence",
    "Strtk.Parse.C130_wrong_count",
    "Strtk.Parse.C130_values_partial",
    "Strtk.Parse.C130_values_of_main",
    "Strtk.Parse.C130_one_of_main"
   ],
   "note": "The sequence version is proved. The versions for single targets read argv[1] ... argv[argc] (C130_values_partial): called with the argc and argv of main they never succeed and make a string from the null pointer argv[argc] once all arguments behind the first have converted (C130_values_of_main, C130_one_of_main)."
  },
  {
   "property": "C131",
   "status": "partial",
   "theorems": [
    "Strtk.Parse.C131_split",
    "Strtk.Parse.C131_split_n",
    "Strtk.Parse.C131_remove_partial",
    "Strtk.Parse.C131_cut_off"
   ],
   "note": "split and split_n take delimiter strings of every length. remove_leading, remove_trailing and remove_consecutives_inplace look at the first 256 characters only (C131_cut_off); up to that length they are as stated."
  },
  {
   "property": "C132",
   "status": "proved",
   "theorems": [
    "Strtk.Programs.C132_all_choices",
    "Strtk.Programs.C132_order",
    "Strtk.Programs.C132_refused"
   ],
   "note": "std::sort is taken as the sorted rearrangement; the text of the usage messages is not modelled. A k of 2^32 or more is not a numeral for the converter to unsigned long (C29)."
  },
  {
   "property": "C133",
   "status": "partial",
   "theorems": [
    "Strtk.Programs.C133_glober_partial",
    "Strtk.Programs.C133_file_name_patterns"
   ],
   "note": "Proved for patterns and lines that match decides rightly (C15). Missing because false: with a pattern such as *.hpp, the documented use, a nonempty line without '.' makes match read behind its end (file_name_patterns)."
  },
  {
   "property": "C134",
   "status": "proved",
   "theorems": [
    "Strtk.Programs.C134_each_line",
    "Strtk.Programs.C134_uniform",
    "Strtk.Programs.C134_nothing"
   ],
   "note": "Draws are independent real numbers from [0,1); the program draws doubles from boost or <random>."
  },
  {
   "property": "C135",
   "status": "proved",
   "theorems": [
    "Strtk.Random.C135_combination",
    "Strtk.Random.C135_permutation",
    "Strtk.Random.C135_select_1",
    "Strtk.Random.C135_select_k",
    "Strtk.Random.C135_fractions"
   ],
   "note": "Draws are independent real numbers from [0,1) and the two expressions using them are evaluated exactly; the program computes in double (C81, C82 cover rounding as to safety)."
  },
  {
   "property": "C136",
   "status": "proved",
   "theorems": [
    "Strtk.Programs.C136_accepted",
    "Strtk.Programs.C136_rest_ignored",
    "Strtk.Programs.C136_any_order",
    "Strtk.Programs.C136_not_alone"
   ],
   "note": "The arithmetic of double is a parameter: the theorems hold for any. Undefined outcomes of the conversion (C30) and of the cast are never acceptance."
  },
  {
   "property": "C137",
   "status": "proved",
   "theorems": [
    "Strtk.Programs.C137_same_lines",
    "Strtk.Programs.C137_fair",
    "Strtk.Programs.C137_usage"
   ],
   "note": "Same lines: with floating-point draws of p bits. Fairness: draws are independent reals from [0,1)."
  },
  {
   "property": "C138",
   "status": "proved",
   "theorems": [
    "Strtk.Combi.C138_nth_is_n_steps",
    "Strtk.Combi.C138_resume",
    "Strtk.Combi.C138_no_resume_without_rest"
   ],
   "note": "Elements of a linear order, distinct and sorted, 2 <= k, range shorter than 2^32, C(r,k) < 2^64, appending output iterator. C138_no_resume_without_rest shows that the loop of strtk_nth_combination_example.cpp 136-143, announced as iterating to the end, shows one combination."
  },
  {
   "property": "C139",
   "status": "proved",
   "theorems": [
    "Strtk.Programs.C139_report",
    "Strtk.Programs.C139_usage",
    "Strtk.Programs.C139_nan"
   ],
   "note": "C139_report: the lines written are those of the specification, for any table; C139_nan: a NaN cell is undefined behaviour; C139_usage."
  },
  {
   "property": "C140",
   "status": "partial",
   "theorems": [
    "Strtk.Real.C140_error_bound_partial",
    "Strtk.Real.C140_integer_exact",
    "Strtk.Real.C140_correctly_rounded",
    "Strtk.Real.C140_overflow",
    "Strtk.Real.C140_large_exponent",
    "Strtk.Real.C140_zero_large_exponent"
   ],
   "note": "error bound proved for integers below 1.797693134e308 before the point, up to 307 digits behind it, exponents -615 to 308 and values up to 1.797693134e308, including subnormal results; false beyond: 310 significant digits before or behind the point give infinity whatever the exponent (0.111...1 with 310 ones), any non-zero number with an exponent from 309 to 9999 is infinite (0.001e310; from 1000 on only without a suffix letter), and zero with such an exponent (0e309) is read as NaN"
  },
  {
   "property": "C141",
   "status": "partial",
   "theorems": [
    "Strtk.Programs.C141_words_partial",
    "Strtk.Programs.C141_no_file"
   ],
   "note": "the list without its empty tokens is the list of words; but the compressing split leaves an empty token at each end of a line at which a delimiter stands, and the program counts them: exact count proved"
  },
  {
   "property": "C142",
   "status": "partial",
   "theorems": [
    "Strtk.Programs.C142_words_partial",
    "Strtk.Programs.C142_high_byte"
   ],
   "note": "proved for files of 7-bit characters; a two-byte word that begins with a byte from 128 to 254 is handed to std::toupper as a negative number (C142_high_byte)"
  },
  {
   "property": "C143",
   "status": "proved",
   "theorems": [
    "Strtk.Real.C143_error",
    "Strtk.Real.C143_largest",
    "Strtk.Real.C143_subnormal",
    "Strtk.Real.C143_integers",
    "Strtk.Real.C143_special"
   ],
   "note": "The output format of the stream is the standard library's and is specified (%.10g). Zeros have no sign in the model; nan has none either."
  },
  {
   "property": "C144",
   "status": "proved",
   "theorems": [
    "Strtk.Programs.C144_combinator"
   ],
   "note": "n and k are parameters of the model; with n = 6 and k = 4 it is the program."
  },
  {
   "property": "C145",
   "status": "partial",
   "theorems": [
    "Strtk.Programs.C145_output_partial",
    "Strtk.Programs.C145_not_as_described"
   ],
   "note": "the tables are proved exactly, with the two columns of the second equal; but nth_combination_sequence completes the choice by default, so each line shows the chosen elements followed by all the others (0000 | 012345 | ABCDEF) and not the line of the description (0000 | 0123 | ABCD): C145_not_as_described, for every k < n"
  },
  {
   "property": "C146",
   "status": "proved",
   "theorems": [
    "Strtk.KeyValue.C146_round_trip",
    "Strtk.KeyValue.C146_order",
    "Strtk.KeyValue.C146_order_lenient",
    "Strtk.KeyValue.C146_failure_order"
   ],
   "note": "The map is any look-up function; the three maps of the library are such functions (C59_uint_find, C59_number_find, C59_string_find). C146_failure_order shows that order matters after a failure."
  },
  {
   "property": "C147",
   "status": "proved",
   "theorems": [
    "Strtk.Programs.C147_search",
    "Strtk.Programs.C147_no_errors",
    "Strtk.Programs.C147_odd_overrun"
   ],
   "note": "Times and rates are not modelled; the file is read back as written. C147_odd_overrun: with an odd k the loop over half elements can read behind the buffer (k = 7 of 7 letters)."
  },
  {
   "property": "C148",
   "status": "proved",
   "theorems": [
    "Strtk.Codec.C148_bin_to_hex",
    "Strtk.Codec.C148_hex_to_bin",
    "Strtk.Codec.C148_bin_to_base64",
    "Strtk.Codec.C148_base64_to_bin",
    "Strtk.Codec.C148_base64_round_trip"
   ],
   "note": "The exact outcome of the four pointer overloads for every input and buffer: result, rest of the buffer, size, and undefined behaviour when there is less room."
  },
  {
   "property": "C149",
   "status": "proved",
   "theorems": [
    "Strtk.Programs.Conv.C149_example01",
    "Strtk.Programs.Conv.C149_example02",
    "Strtk.Programs.Conv.C149_example03",
    "Strtk.Programs.Conv.C149_hex_speed",
    "Strtk.Programs.Conv.C149_b64_speed",
    "Strtk.Programs.Conv.C149_size_one"
   ],
   "note": "Sizes, texts and rounds are arguments; with buffers of one byte the second example would overrun (C149_size_one). Times are not modelled."
  },
  {
   "property": "C150",
   "status": "proved",
   "theorems": [
    "Strtk.Programs.SearchTrie.C150_examples",
    "Strtk.Programs.SearchTrie.C150_list",
    "Strtk.Programs.SearchTrie.C150_list_length",
    "Strtk.Programs.SearchTrie.C150_search"
   ],
   "note": "The condition on the keys is met by the program's keys and needed in general (C53_shared_value). std::map and std::set are taken as specified. Times are not modelled."
  },
  {
   "property": "C151",
   "status": "proved",
   "theorems": [
    "Strtk.Programs.KeyValue.C151_example01",
    "Strtk.Programs.KeyValue.C151_failure",
    "Strtk.Programs.KeyValue.C151_example02",
    "Strtk.Programs.KeyValue.C151_leftover"
   ],
   "note": "The converters of the members other than ui1 and the lists are arguments (C28-C30). After a refused text the lists are not reset and its elements are shown with the next text (C151_leftover); the property speaks about texts that are accepted. Times are not modelled."
  },
  {
   "property": "C152",
   "status": "proved",
   "theorems": [
    "Strtk.Grid.C152_table_loads",
    "Strtk.Grid.C152_table_loads_compressed",
    "Strtk.Grid.C152_compress_drops_empty",
    "Strtk.Grid.C152_empty_line_dropped",
    "Strtk.Grid.C152_quoted_table_loads"
   ],
   "note": "The conditions on cells and rows are stated in the property; that empty lines are dropped and that compression loses empty cells is proved too (C152_empty_line_dropped, C152_compress_drops_empty)."
  },
  {
   "property": "C153",
   "status": "proved",
   "theorems": [
    "Strtk.Programs.TokenGrid.C153_transposed",
    "Strtk.Programs.TokenGrid.C153_symbol_sums",
    "Strtk.Programs.TokenGrid.C153_buckets_total",
    "Strtk.Programs.TokenGrid.C153_buckets_of_three",
    "Strtk.Programs.TokenGrid.C153_empty_removed",
    "Strtk.Programs.TokenGrid.C153_aligned"
   ],
   "note": "Integer sums in place of unsigned long long and double ones. token_grid_test09 prints the last row without its last cell: that is C65. The other functions of the program (test01-06, 08, 09, 11, 13, 15) are calls whose behaviour is C60-C66, C85-C87, C109."
  },
  {
   "property": "C154",
   "status": "proved",
   "theorems": [
    "Strtk.Programs.Serializer.C154_one_person",
    "Strtk.Programs.Serializer.C154_persons",
    "Strtk.Programs.Serializer.C154_persons_through_file",
    "Strtk.Programs.Serializer.C154_vector_to_deque",
    "Strtk.Programs.Serializer.C154_total_written",
    "Strtk.Programs.Serializer.C154_total_read",
    "Strtk.Programs.Serializer.C154_short_strings",
    "Strtk.Programs.Serializer.C154_padded_number",
    "Strtk.Programs.Serializer.C154_padded_negative"
   ],
   "note": "Persons with any contents, step and count; the comparison is a parameter, so NaN fields are covered. Composes C47 (with the exact room of Binary/Room.lean), C49, C125, C28 and C29. A negative number shorter than its field is never read back, since the zeros come before the sign (C154_padded_negative)."
  },
  {
   "property": "C155",
   "status": "proved",
   "theorems": [
    "Strtk.Programs.Test.C155_helpers",
    "Strtk.Programs.Test.C155_split_n",
    "Strtk.Programs.Test.C155_empty_filter",
    "Strtk.Programs.Test.C155_fast",
    "Strtk.Programs.Test.C155_fast_least",
    "Strtk.Programs.Test.C155_construct_and_parse",
    "Strtk.Programs.Test.C155_record",
    "Strtk.Programs.Test.C155_construct_members"
   ],
   "note": "Composes C01-C06, C28, C31, C33, C37, C74, C143 and C162; also the record of strtk_parse_test.cpp (C155_record, C155_construct_members: every float, every double that is an integer of up to ten digits). The comparison of reals (not_equal) is a parameter. At the least int the fast conversion overflows (C155_fast_least)."
  },
  {
   "property": "C156",
   "status": "partial",
   "theorems": [
    "Strtk.Combi.C156_alone",
    "Strtk.Combi.C156_initialized_partial",
    "Strtk.Combi.C156_initialize",
    "Strtk.Combi.C156_after_initialize_partial",
    "Strtk.Combi.C156_hundred_races",
    "Strtk.Combi.C156_first_calls_race",
    "Strtk.Combi.C156_first_calls_wrong"
   ],
   "note": "Proved after initialize_n_choose_k for all calls with n other than 100, with no write at all; n = 100 races (C156_hundred_races), since initialize_n_choose_k stops at 99. Without initialize_n_choose_k the first calls race (C156_first_calls_race) and a schedule gives a wrong result (C156_first_calls_wrong). With the table initialised but not full, results are right in every interleaving of atomic accesses (C156_initialized_partial)."
  },
  {
   "property": "C157",
   "status": "proved",
   "theorems": [
    "Strtk.FileIO.C157_states_end",
    "Strtk.FileIO.C157_copy",
    "Strtk.FileIO.C157_concatenate",
    "Strtk.FileIO.C157_write",
    "Strtk.FileIO.C157_write_text",
    "Strtk.FileIO.C157_write_text_done",
    "Strtk.FileIO.C157_write_text_refused",
    "Strtk.FileIO.C157_old_contents_lost",
    "Strtk.FileIO.C157_every_beginning"
   ],
   "note": "States of the file system after each byte that reaches a file; C157_states_end ties them to the functions. C157_old_contents_lost and C157_every_beginning show that nothing stronger holds (no atomic replacement). Loss or reordering inside the operating system's cache is not modelled."
  },
  {
   "property": "C158",
   "status": "partial",
   "theorems": [
    "Strtk.Binary.C158_values_cut_short_partial",
    "Strtk.Binary.C158_known_length_unnoticed",
    "Strtk.Bloom.C158_filter_cut_short_partial",
    "Strtk.Bloom.C158_filter_any_file",
    "Strtk.Lines.C158_text_cut_short",
    "Strtk.Lines.C158_text_unnoticed"
   ],
   "note": "Proved for Bloom filter files and for values read by a binary reader whose buffer is as long as the file. False for text files (C158_text_unnoticed: a cut is never noticed for lines of text; C158_text_cut_short says exactly what is loaded) and for reader(stream, length) with a length known from elsewhere (C158_known_length_unnoticed: the rest of the value comes from the old contents of the buffer)."
  },
  {
   "property": "C159",
   "status": "proved",
   "theorems": [
    "Strtk.Programs.C159_accepts",
    "Strtk.Programs.C159_list",
    "Strtk.Programs.C159_print",
    "Strtk.Programs.C159_stamp_reads",
    "Strtk.Programs.C159_round_trip",
    "Strtk.Programs.C159_program",
    "Strtk.Programs.C159_distinct",
    "Strtk.Programs.C159_event",
    "Strtk.Programs.C159_event_unnamed"
   ],
   "note": "std::cout << unsigned is taken as the decimal text (C28_unsigned_text for the same text from type_to_string). C159_event_unnamed: the condition on the name is needed. The id limit is the one of C29_unsigned_long_partial."
  },
  {
   "property": "C160",
   "status": "partial",
   "theorems": [
    "Strtk.FilterMemory.C160_enough_memory",
    "Strtk.FilterMemory.C160_any_failure_partial",
    "Strtk.FilterMemory.C160_failed_assignment",
    "Strtk.FilterMemory.C160_failed_read",
    "Strtk.FilterMemory.C160_others_keep",
    "Strtk.FilterMemory.C160_failed_compress"
   ],
   "note": "C160_enough_memory: true while memory lasts. False in general: an assignment that gets no table leaves a dangling pointer that is deleted again (C160_failed_assignment), a read that runs out of memory loses the file's buffer (C160_failed_read), a compress stopped at its last statement searches behind the table (C160_failed_compress). C160_any_failure_partial: whichever requests fail, nothing else goes wrong as long as no assignment fails for want of a table, and exactly one buffer is lost per failed read. The growth of a vector counts as one request."
  },
  {
   "property": "C161",
   "status": "partial",
   "theorems": [
    "Strtk.Trie.C161_returned",
    "Strtk.Trie.C161_threw_partial",
    "Strtk.Trie.C161_retry",
    "Strtk.Trie.C161_nodes",
    "Strtk.Trie.C161_enough_memory",
    "Strtk.Trie.C161_leak",
    "Strtk.Trie.C161_phantom"
   ],
   "note": "True for calls that return (C161_returned), for trying again (C161_retry), and while memory lasts (C161_enough_memory). False: a failing push_back loses the new node (C161_leak; C161_nodes: at most one node per failed call, everything else is freed), and a failed insertion can make a key appear that was never inserted (C161_phantom); C161_threw_partial says exactly which questions can be answered differently afterwards. A push_back that needs no memory is a request that does not fail."
  },
  {
   "property": "C162",
   "status": "proved",
   "theorems": [
    "Strtk.Real.C162_every_float",
    "Strtk.Real.C162_special",
    "Strtk.Real.C162_texts_differ",
    "Strtk.Real.C162_nearest",
    "Strtk.Real.C162_overflow"
   ],
   "note": "The conversion works in double (C140, C143) and narrows at the end; the narrowing is modelled as IEEE 754 rounding to nearest even with overflow to infinity. Signs of zero and nan are not modelled."
  },
  {
   "property": "C163",
   "status": "partial",
   "theorems": [
    "Strtk.Programs.C163_declaration",
    "Strtk.Programs.C163_declaration_refused",
    "Strtk.Programs.C163_temperature",
    "Strtk.Programs.C163_temperature_nan",
    "Strtk.Programs.C163_trimming_partial",
    "Strtk.Programs.C163_casing",
    "Strtk.Programs.C163_trimming_values_partial"
   ],
   "note": "For texts of ASCII characters (C70_iexpect_high). Claims that fail: the number nan is in every range (C163_temperature_nan), a field of nothing but characters to trim keeps one of them (C93), the numeral of the least int overflows (C29). The block with wildcards (strtk_examples.cpp 975-1000) is not treated: see C15."
  },
  {
   "property": "C164",
   "status": "partial",
   "theorems": [
    "Strtk.Codec.C164_separate_objects",
    "Strtk.Codec.C164_base64_to_bin_same",
    "Strtk.Codec.C164_base64_round_trip",
    "Strtk.Codec.C164_hex_in_place",
    "Strtk.Codec.C164_hex_to_bin_same",
    "Strtk.Codec.C164_bin_to_hex_same",
    "Strtk.Codec.C164_bin_to_base64_same",
    "Strtk.Codec.C164_bitwise_same",
    "Strtk.Strings.C164_replace_separate",
    "Strtk.Strings.C164_replace_same_no_occurrence",
    "Strtk.Strings.C164_replace_same_shorter",
    "Strtk.Strings.C164_replace_same_equal",
    "Strtk.Strings.C164_replace_same_longer",
    "Strtk.Strings.C164_replacement_same",
    "Strtk.Join.C164_append_separate",
    "Strtk.Join.C164_replicate_same",
    "Strtk.Join.C164_replicate_same_right",
    "Strtk.Join.C164_join_same",
    "Strtk.Join.C164_join_same_two",
    "Strtk.Join.C164_bracketize_same"
   ],
   "note": "Proved for base64 decoding, bitwise_transform with either or both inputs shared, hexadecimal decoding of raw memory, patterns that are the output, replacements of the pattern's length and texts without an occurrence. False elsewhere, with the exact effect proved: encoding a string into itself writes behind it; string hexadecimal decoding handles only the first half; a shorter replacement leaves the last characters where they were or leaves the string, a longer one always leaves it; a replacement that is the output is overwritten before its last use (instance); replicate gives 2^n copies; join and bracketize use everything written so far as delimiter or bracket."
  },
  {
   "property": "C165",
   "status": "proved",
   "theorems": [
    "Strtk.Grid.C165_row",
    "Strtk.Grid.C165_column",
    "Strtk.Grid.C165_column_if",
    "Strtk.Grid.C165_additions",
    "Strtk.Grid.C165_table_unsigned",
    "Strtk.Grid.C165_table_signed",
    "Strtk.Grid.C165_unbounded"
   ],
   "note": "C165_row, C165_column and C165_column_if hold for every conversion and addition, C165_additions gives the additions of the integer types; C165_table_unsigned and C165_table_signed compose them with C29. A signed sum that leaves the range of its type on the way is undefined behaviour (part of the theorem). The number returned for a column also counts rows without it (C86)."
  },
  {
   "property": "C166",
   "status": "partial",
   "theorems": [
    "Strtk.Bloom.C166_any_file",
    "Strtk.Bloom.C166_refused",
    "Strtk.Bloom.C166_cut_file",
    "Strtk.Bloom.C166_complete_file",
    "Strtk.Bloom.C166_assigned",
    "Strtk.Bloom.C166_accepted_unchecked",
    "Strtk.Bloom.C166_compressible_same_size",
    "Strtk.Bloom.C166_compressible_other_size"
   ],
   "note": "True is exact (C166_any_file, C166_complete_file), and reading a complete file or an assignment repairs every filter (C166_assigned). False: a refused read has already emptied the filter, which then claims to contain everything or cannot be asked (C166_refused, C166_cut_file says which by the point of the cut); an accepted file need not give a usable filter (C166_accepted_unchecked); a compressible filter keeps the sizes of its own construction, so it answers right only if they agree (C166_compressible_same_size, C166_compressible_other_size)."
  },
  {
   "property": "C167",
   "status": "partial",
   "theorems": [
    "Strtk.Saving.C167_crash",
    "Strtk.Saving.C167_saved",
    "Strtk.Saving.C167_full_disk",
    "Strtk.Saving.C167_answer",
    "Strtk.Saving.C167_states_end",
    "Strtk.Saving.C167_pods_crash"
   ],
   "note": "The crash clauses are proved for filters (C167_crash) and plain objects (C167_pods_crash); C167_states_end ties the states to the functions. That true means readable is false: the result of the last write is ignored, so a full disk goes unnoticed (C167_full_disk); with room enough it holds (C167_saved)."
  },
  {
   "property": "C168",
   "status": "partial",
   "theorems": [
    "Strtk.Bloom.Conc.C168_safe",
    "Strtk.Bloom.Conc.C168_one_writer",
    "Strtk.Bloom.Conc.C168_queries",
    "Strtk.Bloom.Conc.C168_nothing_lost",
    "Strtk.Bloom.Conc.C168_one_writer_found",
    "Strtk.Bloom.Conc.C168_nothing_invented",
    "Strtk.Bloom.Conc.C168_all_done",
    "Strtk.Bloom.Conc.C168_locked",
    "Strtk.Bloom.Conc.C168_reader_races",
    "Strtk.Bloom.Conc.C168_writers_race",
    "Strtk.Bloom.Conc.C168_key_lost",
    "Strtk.Bloom.Conc.C168_count_lost",
    "Strtk.Bloom.Conc.C168_usable"
   ],
   "note": "Proved for threads that only ask (C168_queries, without data race), for a lock around every call (C168_locked, with C168_all_done), and for every schedule the bounds (C168_safe) and that nothing is invented (C168_nothing_invented). With one thread inserting the result is exact and nothing is missed in every interleaving of single accesses (C168_one_writer, C168_one_writer_found; more generally C168_nothing_lost), but this is a data race in C++ (C168_reader_races), so it rests on accesses to single cells being atomic. False for several inserting threads: keys and counts are lost (C168_key_lost, C168_count_lost), and two inserting threads race whatever their keys (C168_writers_race)."
  },
  {
   "property": "C169",
   "status": "partial",
   "theorems": [
    "Strtk.Throwing.C169_remove_row_if",
    "Strtk.Throwing.C169_remove_token_if",
    "Strtk.Throwing.C169_remove_row_if_early",
    "Strtk.Throwing.C169_remove_row_if_returns",
    "Strtk.Throwing.C169_remove_token_if_returns",
    "Strtk.Throwing.C169_remove_row_if_wrong",
    "Strtk.Throwing.C169_remove_token_if_wrong",
    "Strtk.Throwing.C169_remove_inplace",
    "Strtk.Throwing.C169_remove_inplace_rest",
    "Strtk.Throwing.C169_remove_inplace_returns",
    "Strtk.Throwing.C169_remove_inplace_neither",
    "Strtk.Throwing.C169_delete_if",
    "Strtk.Throwing.C169_delete_if_returns",
    "Strtk.Throwing.C169_for_each_combination",
    "Strtk.Throwing.C169_combination_moved",
    "Strtk.Throwing.C169_for_each_permutation"
   ],
   "note": "Proved for remove_inplace (C169_remove_inplace, C169_remove_inplace_rest), delete_if (C169_delete_if), for_each_combination and for_each_permutation. For token grids what is left is given exactly (C169_remove_row_if, C169_remove_token_if: all accesses defined, rows not yet looked at unchanged, and with nothing removed before, everything unchanged: C169_remove_row_if_early), but the last part is false: rows already looked at can show tokens of other rows (C169_remove_row_if_wrong, C169_remove_token_if_wrong). remove_inplace can leave a sequence that is neither the old nor the new one (C169_remove_inplace_neither). The _returns theorems show that without exceptions the models are those of C09, C100, C61 to C63."
  },
  {
   "property": "C170",
   "status": "proved",
   "theorems": [
    "Strtk.Grid.C170_additions",
    "Strtk.Grid.C170_additions_exact",
    "Strtk.Grid.C170_table",
    "Strtk.Grid.C170_table_exact",
    "Strtk.Grid.C170_no_number",
    "Strtk.Grid.C170_order_matters"
   ],
   "note": "C170_additions and C170_additions_exact are about adding up doubles one after the other; C170_table and C170_table_exact compose them with C165_column, C140_error_bound_partial and C140_integer_exact for columns written as text. Rows, ranges of rows and predicates are covered by C165_row, C165_column and C165_column_if, which hold for every addition. C170_order_matters: the error is relative to the sum of the absolute values, not to the sum, and the order of the rows matters. Arithmetic is IEEE binary64 without extended precision; zeros have no sign."
  },
  {
   "property": "C171",
   "status": "partial",
   "theorems": [
    "Strtk.Grid.C171_history_partial",
    "Strtk.Grid.C171_load_buffer",
    "Strtk.Grid.C171_load_file",
    "Strtk.Grid.C171_recovers",
    "Strtk.Grid.C171_no_buffer",
    "Strtk.Grid.C171_frees_callers_buffer",
    "Strtk.Grid.C171_constructor_leaks",
    "Strtk.Grid.C171_constructor"
   ],
   "note": "Proved for every history in which no file load fails to get its buffer while the grid still has a buffer of the caller's: memory safety, no leak, exactly the rows that fitted, full recovery. False otherwise: C171_frees_callers_buffer, C171_constructor_leaks, C108_no_memory_dangles."
  },
  {
   "property": "C172",
   "status": "partial",
   "theorems": [
    "Strtk.Split.C172_output_throws",
    "Strtk.Split.C172_output_throws_n",
    "Strtk.Split.C172_prefix",
    "Strtk.Split.C172_prefix_n",
    "Strtk.Split.C172_throws_at",
    "Strtk.Split.C172_remembers",
    "Strtk.Split.C172_questions",
    "Strtk.Split.C172_asks_twice",
    "Strtk.Split.C172_safe",
    "Strtk.Split.C172_safe_n",
    "Strtk.Split.C172_all_delimiters_forever"
   ],
   "note": "Proved of split (all options) and split_n for arbitrary stateful predicates and outputs that may throw at any point: no undefined behaviour and tokens in order (C172_safe, C172_safe_n), prefix under an earlier exception (C172_prefix, C172_prefix_n), exactly the tokens before the refused one for a throwing output (C172_output_throws, C172_output_throws_n). With no options, compressed delimiters, or the first delimiter kept: the tokens of a predicate that remembers are those of the text annotated with its answers (C172_remembers), the questions are the characters in order (C172_questions), and an exception at question m leaves the tokens ending before m (C172_throws_at). Three parts are false of the code: a last character answered yes is asked about again and its token dropped if the answer changed (in C172_remembers and C172_questions), with two kinds of options characters are asked about twice (C172_asks_twice), and with all delimiters kept a predicate with alternating answers makes split loop for ever, sending tokens (C172_all_delimiters_forever)."
  },
  {
   "property": "C173",
   "status": "proved",
   "theorems": [
    "Strtk.Parse.C173_targets",
    "Strtk.Parse.C173_container",
    "Strtk.Parse.C173_container_n",
    "Strtk.Parse.C173_sequence",
    "Strtk.Parse.C173_tail",
    "Strtk.Parse.C173_tail_no_memory",
    "Strtk.Lines.C173_lines",
    "Strtk.Lines.C173_lines_n",
    "Strtk.Lines.C173_lines_again"
   ],
   "note": "Converters and containers are arbitrary functions of the state of the world that may throw; a container that throws is as before the call, the strong guarantee of the standard. The array of tokens of parse is on the stack; the list of tokens of the overloads with a container may run out of memory at any token."
  },
  {
   "property": "C174",
   "status": "partial",
   "theorems": [
    "Strtk.Split.C174_safe",
    "Strtk.Split.C174_ends_partial",
    "Strtk.Split.C174_forever",
    "Strtk.Split.C174_loses",
    "Strtk.Split.C174_last_question",
    "Strtk.Split.C174_prefix",
    "Strtk.Split.C174_remembers_partial",
    "Strtk.Split.C174_again",
    "Strtk.Split.C174_twice",
    "Strtk.Split.C174_plain",
    "Strtk.Split.C174_skips",
    "Strtk.Split.C174_all_run"
   ],
   "note": "Proved of all options: no undefined behaviour and shown tokens in the text for every history of increments with caught exceptions (C174_safe), the prefix law (C174_prefix); of all options except all delimiters kept alone: the walk ends (C174_ends_partial); without compression and not with all delimiters kept alone, and if the last character gets the same answer again: the tokens are those of the text annotated with the answers (C174_remembers_partial). The rest is false of the code, as proved: with all delimiters kept an alternating predicate gives empty tokens for ever (C174_forever), an exception loses the part of the token already scanned (C174_loses), an exception from the question about the last character leaves an iterator that shows a token stretched to the end of the text (C174_last_question), the last character is asked about twice and a changed answer makes overlapping tokens (C174_again), with compressed delimiters other characters are asked about twice too (C174_twice), and there an exception behind a token leaves the iterator showing the new token, which a caller that increments again never uses (C174_skips; with all delimiters kept the old one stays, C174_all_run). With plain predicates all is as for the tokenizer of C05 and C114 (C174_plain)."
  },
  {
   "property": "C175",
   "status": "partial",
   "theorems": [
    "Strtk.Parse.C175_targets_partial",
    "Strtk.Parse.C175_last_wins",
    "Strtk.Parse.C175_vector_partial",
    "Strtk.Parse.C175_deque",
    "Strtk.Parse.C175_text"
   ],
   "note": "Proved in full for repeated variables (C175_last_wins), for the delimiters as a target and for the text as the last one (C175_targets_partial, C175_text), and for deque and list (C175_deque). False otherwise, with the exact extent: a text written before another conversion is tried makes the call undefined (C175_targets_partial, C175_text), and a vector must have room, without growing, for all fields but the last (C175_vector_partial). A string changed or moved is taken to lose the addresses of its characters, as the standard allows; the sequence overload is modelled for compressed delimiters, the default."
  },
  {
   "property": "C176",
   "status": "proved",
   "theorems": [
    "Strtk.Real.C176_agrees",
    "Strtk.Real.C176_error_bound",
    "Strtk.Real.C176_exact",
    "Strtk.Real.C176_order",
    "Strtk.Real.C176_cut",
    "Strtk.Real.C176_not_nearest"
   ],
   "note": "The sink of C102 with the binary64 arithmetic of C140, numbers with a point. Numbers without a point are covered by C102 (undefined behaviour). That the number stored need not be the nearest double is proved as C176_not_nearest and part of the statement."
  },
  {
   "property": "C177",
   "status": "proved",
   "theorems": [
    "Strtk.Timer.C177_seconds",
    "Strtk.Timer.C177_microseconds",
    "Strtk.Timer.C177_no_time",
    "Strtk.Timer.C177_scoped"
   ],
   "note": "The timer of C117, IEEE double arithmetic of C140. The Windows branch is not modelled."
  },
  {
   "property": "C178",
   "status": "partial",
   "theorems": [
    "Strtk.Random.C178_values",
    "Strtk.Random.C178_skips_partial",
    "Strtk.Random.C178_seed",
    "Strtk.Random.C178_selection",
    "Strtk.Random.C178_pregen_ignored",
    "Strtk.Random.C178_seed_matters",
    "Strtk.Random.C178_by_seed"
   ],
   "note": "Proved except for uniform_real_rng, whose pregen argument has no effect (C178_pregen_ignored). The engine and the distributions are parameters; Boost's are not modelled."
  },
  {
   "property": "C179",
   "status": "proved",
   "theorems": [
    "Strtk.Refused.C179_pattern_requests",
    "Strtk.Refused.C179_pattern_few",
    "Strtk.Refused.C179_bracketize_requests",
    "Strtk.Refused.C179_replicate_requests",
    "Strtk.Refused.C179_granted",
    "Strtk.Refused.C179_codecs",
    "Strtk.Refused.C179_base64",
    "Strtk.Refused.C179_room",
    "Strtk.Refused.C179_patterns",
    "Strtk.Refused.C179_join",
    "Strtk.Refused.C179_join_if",
    "Strtk.Refused.C179_bracketize",
    "Strtk.Refused.C179_replicate",
    "Strtk.Refused.C179_replicate_overflow"
   ],
   "note": "Requests are numbered and any of them may be refused; the growth policy is a parameter. The strong guarantee of each single operation of std::string is assumed, as in the standard. Input strings are separate objects (sharing is C164, C165). The failing case of replicate (size beyond 64 bits) is C179_replicate_overflow and part of the statement."
  },
  {
   "property": "C180",
   "status": "partial",
   "theorems": [
    "Strtk.Binary.C180_success_partial",
    "Strtk.Binary.C180_any_answer_partial",
    "Strtk.Binary.C180_block",
    "Strtk.Binary.C180_quadratic"
   ],
   "note": "Proved for types in which no element of a container is added to (Elems) and no element is written as nothing (Solid): C180_success_partial, C180_any_answer_partial; blocks: C180_block. False in general: C180_quadratic gives, for all k and m, a buffer of 4+k(4+m) bytes that takes m k(k+1)/2 bytes. Not counted: nodes and spare capacity of containers, temporaries."
  },
  {
   "property": "C181",
   "status": "partial",
   "theorems": [
    "Strtk.Bloom.Rounded.C181_parameters_partial",
    "Strtk.Bloom.Rounded.C181_error_small",
    "Strtk.Bloom.Rounded.C181_probability",
    "Strtk.Bloom.Rounded.C181_tiny_probability",
    "Strtk.Bloom.Rounded.C181_near_one",
    "Strtk.Bloom.Rounded.C181_refused"
   ],
   "note": "Proved for double probabilities from 2^-54 + 2^-99 to 1 - 2^-31 and pow/log accurate to the fraction 2^-50 (C181_parameters_partial; the error is below a millionth up to 1 - 2^-12, C181_error_small; C181_probability). False below: for every double from 2^-1000 to 2^-54 - 2^-103 the call is undefined, since 1.0 - p is 1.0 and minus infinity is converted to an integer (C181_tiny_probability). False near one: from 1 - 2^-45 on the requirement comes out as no bits at all (C181_near_one, for a pow that returns the nearest number there). Missing: probabilities between 1 - 2^-31 and 1 - 2^-45, and the few doubles next to 2^-54, where it depends on the library."
  },
  {
   "property": "C182",
   "status": "partial",
   "theorems": [
    "Strtk.TypeNames.C182_distinct_partial",
    "Strtk.TypeNames.C182_exact",
    "Strtk.TypeNames.C182_total",
    "Strtk.TypeNames.C182_pair",
    "Strtk.TypeNames.C182_compound",
    "Strtk.TypeNames.C182_denotes",
    "Strtk.TypeNames.C182_lost"
   ],
   "note": "False in general (C182_lost): containers of anything but a registered type, and every container within a pair (its overload is declared behind the one for pairs), are Unknown. Proved that the names of types built of registered ones are different for different types (C182_distinct_partial), that in general names are equal precisely when the types agree after replacing what is not registered (C182_exact), that there is always a name, and what it is for pairs, arrays and containers. Types of namespace strtk itself, whose namespace would be searched at instantiation, are left out."
  },
  {
   "property": "C183",
   "status": "proved",
   "theorems": [
    "Strtk.Bloom.Rounded.C183_accurate",
    "Strtk.Bloom.Rounded.C183_promise",
    "Strtk.Bloom.Rounded.C183_empty",
    "Strtk.Bloom.Rounded.C183_monotone"
   ],
   "note": "Every operation rounded to nearest in the IEEE double format of Real/Ieee.lean; exp and pow are parameters with an assumed accuracy (and, for C183_monotone, monotonicity); good_exists shows that the assumptions can be met. The count of elements is an unsigned int in the code, hence below 2^32; that it starts anew after 2^32 insertions is not part of this property."
  },
  {
   "property": "C184",
   "status": "partial",
   "theorems": [
    "Strtk.Real.C184_error_bound_partial",
    "Strtk.Real.C184_integer_exact",
    "Strtk.Real.C184_correctly_rounded",
    "Strtk.Real.C184_large_exponent",
    "Strtk.Real.C184_small_exponent",
    "Strtk.Real.C184_exponent_over_read",
    "Strtk.Real.C184_long_fraction",
    "Strtk.Real.C184_over_read",
    "Strtk.Real.C184_table"
   ],
   "note": "The error bound is proved for exponents from -308 to 308, at most 308 digits behind the point and less than 10^1000 before it. Outside it fails: C184_large_exponent, C184_small_exponent, C184_exponent_over_read, C184_long_fraction and C184_over_read; C184_table shows that the accuracy is that of double even inside."
  },
  {
   "property": "C185",
   "status": "partial",
   "theorems": [
    "Strtk.Real.C185_error_partial",
    "Strtk.Real.C185_integers",
    "Strtk.Real.C185_special",
    "Strtk.Real.C185_large",
    "Strtk.Real.C185_small",
    "Strtk.Real.C185_tiny"
   ],
   "note": "Proved from 9.9999999995e-309 to 9.9999999995e308. The other finite numbers of the type come back infinite (C185_large), as zero (C185_small), or not at all: the text makes the conversion read outside of its table (C185_tiny)."
  },
  {
   "property": "C186",
   "status": "proved",
   "theorems": [
    "Strtk.Grid.C186_remove_rows",
    "Strtk.Grid.C186_remove_column"
   ],
   "note": "Row range: C186_remove_rows; column: C186_remove_column, for any noted width (after rows were removed it may be larger than the table; then nothing is removed).  The class itself calls neither function."
  },
  {
   "property": "C187",
   "status": "proved",
   "theorems": [
    "Strtk.KeyValue.C187_strict",
    "Strtk.KeyValue.C187_strict_memory",
    "Strtk.KeyValue.C187_empty",
    "Strtk.KeyValue.C187_lenient",
    "Strtk.KeyValue.C187_others",
    "Strtk.KeyValue.C187_again",
    "Strtk.KeyValue.C187_prefix",
    "Strtk.KeyValue.C187_no_throw"
   ],
   "note": "C187_strict, C187_strict_memory, C187_lenient, C187_others, C187_prefix, C187_again; C187_no_throw links it to C59. Lookups and conversions are functions of the state of the world; their own loops are those of C59."
  },
  {
   "property": "C188",
   "status": "partial",
   "theorems": [
    "Strtk.Programs.Cmp.C188_tokenizer",
    "Strtk.Programs.Cmp.C188_tokenizer_short",
    "Strtk.Programs.Cmp.C188_copies",
    "Strtk.Programs.Cmp.C188_split",
    "Strtk.Programs.Cmp.C188_lengths",
    "Strtk.Programs.Cmp.C188_sums_partial",
    "Strtk.Programs.Cmp.C188_sum_overflows",
    "Strtk.Programs.Cmp.C188_shipped_overflows",
    "Strtk.Programs.Cmp.C188_least",
    "Strtk.Programs.Cmp.C188_error_bound",
    "Strtk.Programs.Cmp.C188_error_zero",
    "Strtk.Programs.Cmp.C188_error_left",
    "Strtk.Programs.Cmp.C188_shipped_error"
   ],
   "note": "The sums are right if no partial sum leaves int (C188_sums_partial); otherwise the addition overflows (C188_sum_overflows), as it does in the first round of the program as shipped (C188_shipped_overflows: the first 381 texts of its list suffice; it makes 400000 rounds); the list also has -2147483648, whose conversion overflows (C188_least). The error of the string to double test: zero for integers of at most 2^53 in all (C188_error_zero), otherwise bounded (C188_error_bound); integers that add up to one more leave an error of one (C188_error_left), and the program as shipped, with all of its 1072 texts and 80000 rounds, prints a finite error below 396 (C188_shipped_error). The other claims are proved in full. The other libraries and times are not modelled."
  },
  {
   "property": "C189",
   "status": "proved",
   "theorems": [
    "Strtk.Refused.C189_loaded",
    "Strtk.Refused.C189_row",
    "Strtk.Refused.C189_row_new",
    "Strtk.Refused.C189_row_room",
    "Strtk.Refused.C189_column",
    "Strtk.Refused.C189_none",
    "Strtk.Refused.C189_row_half",
    "Strtk.Refused.C189_column_if",
    "Strtk.Refused.C189_none_if"
   ],
   "note": "C189_row, C189_row_new, C189_row_room, C189_column, C189_none; C189_loaded shows that the hypothesis on the order of tokens holds of every loaded grid. C189_row_half: to a string with text in it a row can be cut. C189_column_if and C189_none_if: join_column with a predicate. A predicate that throws is not part of it."
  },
  {
   "property": "C190",
   "status": "partial",
   "theorems": [
    "Strtk.Refused.C190_delimiter_partial",
    "Strtk.Refused.C190_doubles",
    "Strtk.Refused.C190_own_partial",
    "Strtk.Refused.C190_moved",
    "Strtk.Refused.C190_moved_late",
    "Strtk.Refused.C190_column_delimiter_partial",
    "Strtk.Refused.C190_column_own_partial",
    "Strtk.Refused.C190_column_moved",
    "Strtk.Refused.C190_column_if_delimiter_partial",
    "Strtk.Refused.C190_column_if_own_partial",
    "Strtk.Refused.C190_column_if_moved"
   ],
   "note": "C190_delimiter_partial is exact (if and only if); C190_doubles is the text that results otherwise. C190_own_partial: with capacity for what is reserved and for the result all is well and the grid can still be used; C190_moved and C190_moved_late: with less, characters are read where they no longer are. C190_column_delimiter_partial, C190_column_own_partial and C190_column_moved say the same of join_column without a predicate; C190_column_if_delimiter_partial (if and only if), C190_column_if_own_partial and C190_column_if_moved of join_column with a predicate."
  },
  {
   "property": "C191",
   "status": "partial",
   "theorems": [
    "Strtk.Real.C191_plain",
    "Strtk.Real.C191_scaled",
    "Strtk.Real.C191_plain_float",
    "Strtk.Real.C191_scaled_float",
    "Strtk.Real.C191_integers",
    "Strtk.Real.C191_apart_partial",
    "Strtk.Real.C191_order_lost",
    "Strtk.Real.C191_notation",
    "Strtk.Real.C191_many_digits",
    "Strtk.Real.C191_many_digits_long",
    "Strtk.Real.C191_scaled_long",
    "Strtk.Real.C191_apart_long_partial"
   ],
   "note": "The full property is false (C191_order_lost, C191_notation; C191_many_digits, C191_many_digits_long). Proved: numbers without exponent with parts of at most 2^53 (C191_plain, for float C191_plain_float), integers of at most 2^53 with exponents up to 22 (C191_scaled, for float C191_scaled_float, for long double up to 2^64 C191_scaled_long), integers (C191_integers, strict), and all decimal texts that are 2^-43 of their sizes apart (C191_apart_partial; for long double 2^-49, C191_apart_long_partial)."
  },
  {
   "property": "C192",
   "status": "proved",
   "theorems": [
    "Strtk.Real.C192_kept",
    "Strtk.Real.C192_all",
    "Strtk.Real.C192_strict",
    "Strtk.Real.C192_apart",
    "Strtk.Real.C192_merged"
   ],
   "note": "C192_all (C192_kept where no infinity comes back), C192_strict, C192_apart, C192_merged. The stream of type_to_string is specified, as in C124. Subnormal numbers are not part of the property; those up to 2^-1045 come back unchanged (C143_subnormal)."
  }
 ]
}