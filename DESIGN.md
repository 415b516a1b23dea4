# Formal model of strtk: design

Subject: `/repo/strtk.hpp` (header-only string toolkit, C++). All line numbers below and in the Lean comments refer to that file
unless another file is named. The model is written from the source text; nothing was compiled or run.

## Method

* Each C++ function is a small total Lean function. Sequences are `List`, iterators into a sequence are `Nat` offsets, `std::size_t`
  is `Nat` unless wrap-around matters (then the modulus is explicit or `BitVec 64` is used), characters are an arbitrary type where the
  code never looks at their value and `BitVec 8` where it does.
* `Verif/Outcome.lean` gives the result type of anything that could misbehave: `ok a`, `ub` (out-of-range dereference or write, overlapping
  memcpy, signed overflow, missing return...), `diverge` (fuel exhausted) and `thrown`. A dereference is always a checked read
  that yields `ub` outside the sequence, so "no undefined behaviour" is a theorem, never an assumption.
* Loops are structural recursion or recursion on fuel; the fuel given by the top-level definition is proved sufficient
  (the outcome is never `diverge`), or non-termination is proved for *every* amount of fuel.
* Specifications (`*Spec.lean` or a `Spec` section) are written without the model's helpers, in terms of Mathlib/core list functions
  (`filter`, `splitOnP`, `intercalate`, `dropWhile`, `Nat.choose`, `List.Perm`, prefixes, ...).
* Where the English property is false of the code as it is, the file contains the negation with a concrete witness and the strongest
  true variant, with suffix `_partial`. The list of disagreements is at the end of this file.

## Tests of the theorems

`seeded/LOG.jsonl` records hand-written wrong programs (`tools/mutate.py`, `seeded/mutants/`). `tools/automutate.py` makes systematic ones: for every definition that
cites lines of the source it changes one comparison, constant, branch or argument at a time and builds the modules that depend on it; `seeded/AUTO.jsonl` records the
result of each. Survivors are either equivalent programs or led to a stronger theorem (noted in LOG.jsonl).

## The model against the repository's own tests

`Verif/Conformance.lean`, generated by `tools/gen_conformance.py` from strtk_tokenizer_test.cpp, evaluates the model in the kernel on the tables of the test program:
160 texts to split (by `split` and by the tokenizer), 71 integers, 30 fast conversions, 1669 reals, 140 pattern replacements, 65 binomials. The model returns what the tests
expect. These are tests of the model, not proofs, and no claim rests on them.

## Plan per property

| property | modelled | proof idea |
|---|---|---|
| C01-C04 | `split`, `split_compress_delimiters`, options | loop invariant on (first, second); refinement to `splitOnP` / tiling |
| C05 | tokenizer iterator `++`, begin/end | simulation with the split loop |
| C06 | `split_n` | same loop with a counter, prefix of split |
| C07 | `offset_predicate`, `offset_splitter` | induction on offsets / input |
| C08 | `split_pair` | case analysis on first delimiter |
| C09-C14 | remove/replace family as two-index in-place loops | loop invariant: written prefix ++ unread suffix |
| C15, C74 | `match_impl` with checked reads | soundness against an inductive glob relation; completeness refuted by witness, proved for a pattern class |
| C16-C18 | search, prefix/suffix, imatch | induction |
| C19-C22 | codecs with explicit buffers | byte-table facts by kernel `decide` over all 256 bytes lifted by induction on length |
| C23-C27 | bit operations on `BitVec` | bit extensionality; lists by induction |
| C28-C29 | number conversion tables and loops | digit-value invariant, bound tables |
| C30 | real parser: positions, exponent, table index over abstract arithmetic; exact rationals; p-bit round-to-nearest-even arithmetic | loop invariants; correct rounding and relative error bounds; out-of-range table index by general negative theorems |
| C31-C32 | fast converters, hex sink | Horner invariant |
| C33-C37 | parse, parse_n, join, construct | composition with split theorems |
| C38-C40 | replicate, bracketize, inserter, cut, translation | induction |
| C41-C45 | combinatorics with memo state | invariant over call histories; lexicographic order specs |
| C46-C49 | byte order, reader/writer state machines | invariants over op histories; round trip |
| C50-C52 | text helpers, runs | induction |
| C53 | prefix trie with parent-value quirk | invariant over insert histories |
| C54-C56 | bloom filters, bit table as list of bytes | invariant over op histories |
| C57-C58 | hash, memcmp_n | block decomposition of the length |
| C59 | key/value parser | fold over pairs |
| C60-C66 | token_grid as (token list, row index) | invariants over removal histories |
| C67 | file-system map, block copy loop | induction on blocks |
| C68, C91 | `getline` loops over the unread text, callbacks as state transformers | induction on the text |
| C69, C70, C74, C92-C94 | text conditions (with object lifetimes), guarded parse targets, filters | case analysis, checked reads |
| C71, C72, C75, C95 | canonical rotation, unique characters, arrays, min/max | loop invariants, order theory |
| C73 | column index iterator and selector | invariant (current, target, index) over the tokens |
| C76-C78 | hex / base64 sinks, `truncated_int` | reuse of the codec and integer theorems |
| C79, C80, C84 | delimiter predicates, iota, character classes | direct / kernel `decide` over all 256 bytes |
| C81-C83 | random selection with the generator as an arbitrary input stream, exact and rounded arithmetic | invariants for every stream; the rounded product stays below the count |
| C85-C87 | grid loading with quotes, sums, row parse | stateful predicate reduced to a plain one on the annotated text |
| C88-C90 | file streams and raw memory | same file-system model as C67 |
| C96, C97 | `value` handles (type-erased pointers inside an object's own buffer, with lifetimes) and attributes | invariant over call histories |
| C98-C101 | key and value lists of a map, deleting containers of pointers (heap model), unique elements | induction, permutation/order theory |
| C102 | `decimal_sink` over exact arithmetic | loop invariant on digits; undefined reads by general negative theorem |
| C103 | `sink_type` as a state machine over configuring calls | last-value-wins over histories, C34 |
| C104 | `ext_string` and `build_string` as a text changed by calls | invariant over call histories, C09-C13 |
| C105 | size predicates on 64-bit words | decision logic; negative theorem for bounds from 2^63 |
| C106 | `range::adapter` as positions in a memory | decision logic |
| C107, C109 | row ranges and whole rows of a grid | refinement to a list of lists |
| C110, C111 | inserters as references to containers, function objects with state; adjacent pairs | invariant over programs, loop invariant |
| C112 | guards as a stack of copies | induction on program blocks |
| C113 | `type_length` table, longest texts of each integer type | decision logic against the decimal text of every value |
| C114 | tokenizers and iterators with references to predicates | invariant over histories, C05; negative theorems for assignment and dangling references |
| C115 | containers as lists with the insertion and the order of removal of their kind | one lemma per kind on repeated insertion, combined with C34, C88, C91 and C87 |
| C116 | std::next_permutation by recursion, the two loops | next_permutation gives the smallest greater arrangement; measure: arrangements still ahead |
| C117 | timer as a record, clock readings as arguments | last start / last stop of a history by induction, linear arithmetic |
| C118 | trie objects as variables holding addresses, a heap of trees, the compiler's copies | ownership invariant over all programs |
| C119 | the range together with all iterators over it; an iterator is four positions | invariant over all histories of moves, on top of the lexicographic successor theorem (C44) |
| C120 | double as real numbers with infinities and NaN (no rounding; rounding is C181), the search loop, the casts | induction over the loop; the formula solved with log and exp |
| C121 | the engine's matches as a list | induction over the list |
| C122 | the digit table and the unrolling factor as parameters of the loops | both loops equal one loop without unrolling, induction over the text |
| C123 | the hash on 32-bit words, the loops over the salts | equality with arithmetic on natural numbers; injectivity of each mixing step; induction over the random numbers |
| C124 | the stream's notation (`%.10g`) over the rationals, then the conversion of C30 in exact and in rounded arithmetic | the text is in the notation C30 covers and denotes the nearest number of ten digits; its error bound gives the rest |
| C125 | the file as the bytes that are left; the buffer of the reader as in C47 | composition with the round trip of C47 for any bytes behind |
| C126 | the parser of strtk_ipv4_parser.cpp out of split_n (C06) and the fast converter (C31) | the parser decided for every text; round trip with the text of C28 |
| C127 | the loop of strtk_hexview.cpp with its two buffers | induction over the groups of 16 bytes; injectivity from the width of the lines |
| C128 | strtk_wordfreq.cpp out of for_each_line (C68), the strings of C104, split (C02); the map as a sorted list | words of the lines = words of the text; induction over the words |
| C129 | a stream as the text left and a flag; the body common to all versions | the next line off the stream, induction over the calls |
| C130 | argv as pointers that may be null; reading outside or a string from null is undefined | induction over the arguments |
| C131 | delimiter strings as memory with a terminating zero; reading past it is undefined | strnlength and std::string by induction, then C79 and the properties of the set versions |
| C132 | strtk_combinations.cpp out of C29, C130, C45, C35 | the parts of a strictly sorted list are strictly sorted; a sorted choice is a sublist |
| C133 | strtk_glober.cpp out of C15, C68, C130 | greedy specification of `match`; per line a filter of the sorted patterns |
| C134 | strtk_random_line.cpp over C68, draws as reals | the draws that select line j form a box of volume 1/N |
| C135 | the selections of C81/C82 with draws in [0,1)^N | Fubini for the first draw; induction over the loop with a closed form of the remaining probability |
| C136 | strtk_period_parser.cpp over `split_n` and the conversion to real | tokens related to fields by induction over the tokenising relation; acceptance decided |
| C137 | strtk_randomizer.cpp out of C91, C81, C135 | text of lines is injective, so outputs correspond to orders |
| C138 | next_combination iterated against nth_combination_sequence | both walk through the list of all parts in order; the rest is determined by being sorted |
| C139 | strtk_numstats.cpp on the models of load_from_text_file, join, token_grid | refinement: table of cells by splitOnP, grid representation after removing empty tokens, column and row loops by induction |
| C140 | the conversion of C30 instantiated with binary64 arithmetic (rnd64: nearest even, overflow, gradual underflow; infinities and NaN by the IEEE rules, zeros unsigned) | relative error carried through Horner, the table and the exponent by induction, absolute error at the bottom; induction for the overflow of long digit strings; negatives |
| C141, C142 | strtk_text_parser_example01/02.cpp on the models of for_each_line, split, tokenizer, for_each_token, filter_on_match | words specified by splitOnP on the whole text; induction over lines and tokens; exact count of empty tokens; negatives |
| C143 | the round trip of C124 with the binary64 arithmetic of C140 | the value of the text is bounded by half a unit of the tenth digit; the error bound of C140; the position of the exponent for numbers at the two ends; nearest multiple of 2^-1074 |
| C144, C145 | the combination iterator example and the n-th combination example, with n and k as parameters | the k-th state of the iterator (C119) gives line k; n-th combination and n calls of next_combination (C138) give the same line; induction over the lines |
| C146 | the key/value parser of C59 on a text written from a list of pairs | the tokens of the text are the pairs; C59_strict and C59_lenient speak of the values of each variable separately |
| C147 | the bloom filter example program, with letters, k and filter parameters as arguments | the buffer is the concatenation of the elements of the iterator (C119); loops over the buffer are loops over its blocks; C54 and C56 for the history of insertions |
| C148 | pointer overloads of the codecs on an explicit output buffer | loop lemmas with and without room; reuse of the exact decoders |
| C149 | strtk_converters_example.cpp | composition of C19, C20, C148; induction on the sizes |
| C150 | strtk_search_trie_example.cpp | composition of C53; induction on rotations and rounds |
| C151 | strtk_keyvalue_example.cpp with both key maps and the sinks | composition of C146, C59 and C103; induction on texts and rounds |
| C152 | token_grid load, with and without double quotes | round trip: induction on the cells of a row and the rows of the table, over C60 and C85 |
| C153 | strtk_tokengrid_example.cpp | composition of C60, C62, C64, C86, C50; invariants of the bucket loop |
| C154 | persons as tuples of bytes, loops over rounds as recursion, the file as its bytes | composition of the round trips of C47, C49, C125 and of the number texts (C28, C29) |
| C155 | the test functions with their tables as arguments | composition of the laws of split, tokenizer, conversions, construct and parse |
| C156 | a call as a sequence of single accesses to the static table and flag; threads interleaved by any schedule | invariant: every entry is zero or right, entries known to a thread stay filled; after initialisation threads only read |
| C157 | the states of the file system after each byte that reaches a file, for each function that writes files | list of states ends in the function's result; invariant of the output stream over every state: what has arrived is a beginning of what was given |
| C158 | beginnings of the bytes of C56, C47 and C91 given to the readers | a read that succeeds goes the same way with more bytes behind it, so success on a cut file would have consumed the whole |
| C159 | `datetime` and `event_information` of strtk_examples.cpp | exact condition on accepted texts from C29 and C33; stamps split into their numerals; composition of C34, C37, C103 |
| C160 | the buffers of Bloom filters under failing requests for memory: constructors, `operator =`, files, `compress`, destructor | ownership invariant by induction over all programs and all choices of failing requests; the failing calls one by one |
| C161 | `insert` of the prefix trie with failing `new` and `push_back`; the destructor counts the nodes it frees | lookups after a failed call by induction over the key; node balance by induction over histories |
| C162 | conversion to `float`: that to `double` (C140), then narrowing with 24 bits, gradual underflow and overflow | the error of ten digits is far below half a last place of a `float`; narrowing finds the only multiple of the last place near by |
| C163 | parse_example11 of strtk_examples.cpp over the targets of C70 and C93 | exact characterisation of a successful parse by induction on the targets, then each target's own theorem |
| C164 | the codecs, `replace_pattern`, `bitwise_transform`, `replicate`, `join` and `bracketize` with inputs that may be the output object: every read goes through the current content | equality with the separate-object models; exact result or undefined behaviour for shared objects, by induction on the loops |
| C165 | the accumulating functions of the token grid over any conversion and any addition; additions of the integer types, conversions of C29 | one common loop; sums modulo 2^w, exact or undefined by induction on the values; composed with C29 |
| C166 | `read_from_file` member by member, with what each step leaves in the filter; `contains`, `insert` and `operator =` afterwards | case analysis by the member at which the file ends; equality with the file's filter on success |
| C167 | `write_to_file` and `write_pod` on the file system of C88 with a list of intermediate states; reading in each of them | every state is the old one or a prefix of the file; prefixes are refused by C158 or by induction over the objects |
| C168 | `insert` and `contains` as single accesses to the table and the element count; threads run by any schedule; data races | invariants over schedules: bits kept and bits explained; the rest of a thread's calls as a function of the present state; schedules without overlapping calls refine the sequential filter |
| C169 | `remove_inplace`, `delete_if`, `remove_row_if`, `remove_token_if`, `for_each_combination`, `for_each_permutation` with callbacks that may throw (Throwing/) | the state at the point of the exception by induction over what was looked at before; combinations and permutations by reduction to the conditional versions |
| C170 | `accumulate_column` with a `double` result: the loops of C165 over the conversion of C140 | error of one rounding of either sign, then a bound carried through the additions by induction; exactness for integers up to 2^53; composed with C165 and C140 |
| C171 | the two `load` members and the file constructor of `token_grid`, with a budget of successful requests for memory | invariant of who owns which live buffer over histories in which every request may fail; the split loop run with a budget, by induction over the rows, shows the rows before the failure |
| C172 | `split`, `split_compress_delimiters`, `split_n` with a predicate that has a state and may throw and an output that may throw (Split/Callbacks) | two runs side by side for exceptions; for memory, the loop over the text and the plain loop over the text annotated with the answers come to the same final test; safety by an invariant of the tokens sent out; divergence by induction on the number of turns |
| C173 | `parse`, `parse_n`, the converting inserters, `container_adder`, `for_each_line`, `for_each_line_n` with converters, containers and callbacks that may throw (Parse/Throwing) | induction over the targets; for containers the output of C172 instantiated with a container that takes the tokens; induction over the lines |
| C174 | `tokenizer_iterator` with a predicate that has a state and may throw, members kept as they are at the exception (Split/TokCallbacks) | invariant of the members over histories of increments with caught exceptions; measure for the end; two runs side by side for the prefix law; for memory, the loop over the text and the plain loop over the annotated text in step; concrete or general witnesses for the parts that are false |
| C175 | `parse` into variables that may repeat and may be the text or the delimiters, `parse(c[k],delimiters,c)` with the moment at which the container moves its elements (Shared/Parse) | exact result or undefined behaviour by induction over the targets; the loop with and without the text side by side |
| C176 | `decimal_sink` (C102) with the binary64 arithmetic of C140 (Real/DecimalIeee) | the sink equals the ordinary conversion for every arithmetic; exact Horner below 2^53, then one division and one addition; exactness because the fraction of a 53-bit number has 53 bits; the two roundings computed for 1.14 |
| C177 | the timer of C117 with its conversion to seconds in binary64 (Misc/TimerSeconds) | relative error of three roundings; half a microsecond is more than the error up to 2^51 microseconds |
| C178 | engine as a state machine seeded by 32 bits, distributions as functions of its state, `uniform_real_rng` with its two engines (Random/Seeds) | induction over the numbers skipped and the values taken; composition with C81 |
| C179 | the functions that write to a string with numbered requests for memory, any of which may be refused, and an arbitrary growth policy (Refused/) | a rule for sequences of statements; induction over elements and copies |
| C180 | the binary reader of C47/C48 with the memory a value holds outside itself (Binary/Memory.lean) | what the bytes stand for (`Decodes` of C48) summed over the elements; for failing reads the elements read so far and the capacity check; the nested deque by induction over the inner deques |
| C181 | compute_optimal_parameters with every operation rounded to `double`, `log` and `pow` as any functions accurate to the fraction 2^-50 (Bloom/OptimalIeee.lean) | error propagation through root, difference, logarithm and quotient; induction over the search |
| C182 | the overloads of type_name over a grammar of types, lookup inside pairs included (Misc/TypeNames.lean) | names are read in one way: induction over the type with what follows the name |
| C183 | effective_fpp with every operation rounded to `double`, `exp` and `pow` as any functions of an assumed accuracy (Bloom/EffectiveIeee.lean) | error propagation through quotient, exponential, difference and power; monotonicity of rounding |
| C184 | the conversion of a decimal number to x87 extended precision: every operation rounded to 64 bits, the table of powers of ten and `std::pow` in `double` (Real/Extended.lean) | error propagation as for C140; exactness of integers of 64 bits; computation of the failures |
| C185 | `type_to_string` of a `long double` (ten digits, Real/ToText.lean) and the conversion of C184 behind it (Real/TripExtended.lean) | the decimal exponent that is written decides between four ranges; each by C184 |
| C186 | `token_grid::store::remove_row_range` and `remove_column` with `remove_column_impl` (Grid/Column.lean); the table is a list of tokens and the first and last index of every row, 32 bits each | invariant of the copying loop: the tokens written so far, the gap, and the tokens not read, whose next loss is `counter` steps ahead; the index by induction over the rows |
| C187 | `keyvalue::parser::operator()` in both modes when a lookup, a conversion or the list of pairs throws (KeyValue/Throwing.lean); `split` is the one of C172 whose output may throw, the world is a state that lookups and conversions read and change | the loops are equal to functions that stop at the first token that is not good or throws; a relation `Step`/`Steps` states what dealing with a token means; induction over the tokens |
| C188 | strtk_tokenizer_cmp.cpp, the six tests of the library (Programs/TokenizerCmp.lean, TokenizerCmpReal.lean, TokenizerCmpShipped.lean), with texts, counts and rounds as arguments; `int` additions overflow | through C01, C02, C05, C28, C29, C31; induction over the rounds for the partial sums; the negative for the program's own list by evaluation of its first 381 texts in the kernel; the sum of doubles with correctly rounded additions, by induction over the additions with the exact sums bounded; for the shipped list a checked reading of its texts, evaluated in the kernel |
| C189 | `join_row` and `join_column`, with and without predicate, of a grid whose tokens are ranges in its buffer, on the strings of C179 (Refused/GridJoin.lean, Refused/GridJoinIf.lean) | induction over the tokens with the rules of C179; what is joined fits in what is reserved because the tokens lie one after the other, which is an invariant of loading |
| C190 | `join_row` and `join_column` with one string as delimiter and result, and into the string whose memory the grid points to, with a mark that says whether the characters are still there (Refused/GridAlias.lean, Refused/GridAliasColumn.lean, Refused/GridAliasColumnIf.lean) | comparison of lengths over the tokens gives the exact condition; induction over the tokens in front of the first one that is read too late |
| C191 | pairs of texts converted by the model of C140 in binary64 arithmetic (Real/Order.lean) | rounding to nearest is monotone, which follows from the definition of nearest alone; without exponent the result depends only on the value, by two roundings around the integer part; elsewhere from the error bound of C140; the two failures are computed |
| C192 | pairs of numbers through the round trip of C143 (Real/TripOrder.lean) | the number written is the nearest of ten digits, and the nearest element of any set is monotone; two different numbers of ten digits are further apart than the errors of reading; equal ones have the same text |
| C108 | grid object, heap of buffers, load / clear / destroy | invariant over call histories |

## Trusted base

* Lean 4.33.0's kernel. Every theorem depends on at most the axioms `propext`, `Classical.choice`, `Quot.sound`; there are no axioms
  of our own, no `sorry`, no `native_decide`, no `bv_decide`. `decide +kernel` is used for complete finite tables (256 bytes) and for
  concrete witnesses. `AXIOMS.md` (generated by tools/gen_axioms.py) lists the axioms of each theorem.
* The reading of the C++ text into the Lean definitions. Each definition cites the lines it models and states its simplifications.
* The behaviour of the standard library functions the code calls (`std::search`, `std::rotate`, `std::getline`, `std::map`, streams, ...)
  as written in the model definitions of these functions.
* The platform: 8-bit bytes, 32-bit `int`, 64-bit `long`, `long long` and `std::size_t`, signed `char`, little endian, IEEE double ranges.

### Modelled

| area (`lean/Verif/`) | strtk.hpp |
|---|---|
| Lines | 112-255, 387-555, 659-762 (line processing, text files of values) |
| Strings | 807-899, 1194-1867, 1869-1875 (remove, replace, trim, duplicates, replace on iterators) |
| Find | 1882-2305 (wildcard match, find_all, begins/ends with, imatch) |
| Split | 2307-2586, 3271-3620, 3733-3867, 3872-4086 (tokenizer iterators, split, split_n, offsets, split_pair) |
| Misc | 901-1013, 2609-3026, 3141-3269, 4111-4197, 20803-20837, 4199-4382, 7800-8021, 23884-24010, 24379-24495 (timer, range adapter, inserters, scoped_restore, min/max, canonical rotation, unique char, size predicates, arrays) |
| Codec | 4384-5193 (endian-free byte codecs: hex, base64, case, interleave, bit counts, bitwise transform) |
| Grid | 5195-7611 (token_grid: load, access, removal, extraction, joins, partition, accumulate) |
| Guards | 7613-7798, 16248-16650, 17297-17358, 19516-19650 (filters, guarded targets, string_condition) |
| Parse | 1015-1145, 2638-2818, 8023-9689, 10107-10276, 10410-10921, 10926-11099 (parse into values and containers, parse_line, argc/argv) |
| Join | 11101-11830 (construct, join, replicate, bracketize, cut) |
| Random, Combi | 11832-12841 (selection, permutations, combinations) |
| Fast | 12844-13708 (unrolled numeric converters) |
| Binary | 13701-14795 (byte order, reader, writer) |
| Handles | 20839-21156, 21162-21333 (attributes, semantic actions, value handles) |
| Boxes | 872-880, 21335-21624 (unique elements, key and value lists, deletion of pointers) |
| Real/ToText, Real/TripOrder | 17241-17250, 17848-17874 (type_to_string of reals; the stream itself is specified, not modelled) |
| Real/Ieee, Real/Order | 16781-16841, 17646-17701, 17775 with IEEE 754 binary64 operations; std::pow assumed correctly rounded; signed zeros not distinguished |
| Real/Float | 287, 17617-17777 for float: conversion in double, then `static_cast<float>` as IEEE 754 narrowing |
| Parse/SinkType, Real/Decimal | 15133-15408 (sink_type, decimal_sink) |
| Targets | 451-657, 1617-1664, 5966-6162, 8835-9056, 9495-9689, 18768-18826, 21626-21986 (every kind of container as target) |
| Sinks | 14797-15238, 883-899 (hex and base64 number sinks, translation table) |
| Text, Consec | 15419-16240 (alignment, character classes, consecutive runs) |
| Number, Real | 16726-18000 (integer and real conversion), 18074-18084, 18147-18157 (type_length) |
| ExtString | 11393-11428, 18159-18457 |
| FileIO | 18462-19492 (files, pods), 763-804 (text files by name); crash points of 18491-18575, 763-804, 18617-18956 and 20349-20429 |
| Trie, Bloom, Hash | 19652-20801, 23767-23832 |
| KeyValue, Columns | 21162-21333, 21990-23765, 24012-24312 |
| KeyValue/Throwing | 24024-24150, 24181-24193, 24280-24294 |
| Shared | 1695-1760, 1869-1875, 4422-4730, 4971-5010, 11102-11116, 11430-11440, 11463-11482, once more with inputs that may be the output object |
| Grid/RealSums | 6960-7066 once more with `double` results |
| Grid/Memory | 5439-5457, 6308-6318, 7329-7397, 7475-7547 when a request for memory throws |
| Shared/Parse | 8023-8661, 9801-10035 with shared objects, 3304-3336 with a container that may take the text away |
| Split/TokCallbacks | 2353-2501, 2513-2576 with predicates that remember or throw |
| Split/Callbacks | 3304-3399, 3557-3620 with predicates that remember or throw and outputs that throw |
| Binary/Memory | 13957-14112, 14235-14285, 14740-14790, memory held by the values read |
| Bloom/OptimalIeee | 19950-19961, 20018-20068 in IEEE double arithmetic |
| Misc/TypeNames | strtk.hpp 18029-18073, 18094-18142 |
| Bloom/EffectiveIeee | 20281-20291 in IEEE double arithmetic |
| Real/Extended | 16781-16841, 17646-17701, 17775 for `long double` in x87 extended precision |
| Real/TripExtended | 17241-17250, 17848-17874 with Real/Extended |
| Grid/Column | 5277-5412 |
| Refused/Model, Refused/Props, Refused/Counts, Refused/GridJoin, Refused/GridJoinIf, Refused/GridAlias, Refused/GridAliasColumn, Refused/GridAliasColumnIf | 1190-1261, 1695-1760, 1869-1875, 4450-4730, 4928-5010, 7076-7256, 10925-11273, 11430-11482 with requests for memory that are refused |
| Parse/Throwing | 112-148, 2638-2818, 8023-8833, 9030-9689 with conversions, containers and callbacks that throw |
| Programs | strtk_tokenizer_cmp.cpp 62-106, 142-167, 287-310, 312-351, 514-566, strtk_ipv4_parser.cpp 34-90, strtk_examples.cpp 698-769, 953-973, 1002-1089, strtk_hexview.cpp 60-113, strtk_wordfreq.cpp 44-120, strtk_combinations.cpp 46-79, strtk_glober.cpp 79-113, strtk_random_line.cpp 50-88, strtk_period_parser.cpp 41-85, strtk_randomizer.cpp 37-72, strtk_numstats.cpp 54-146, strtk_combinator_example.cpp 36-61, strtk_nth_combination_example.cpp 56-154, strtk_bloom_filter_example.cpp 50-235, strtk_converters_example.cpp 30-188, strtk_search_trie_example.cpp 38-215, strtk_keyvalue_example.cpp 58-346, strtk_tokengrid_example.cpp 362-397, 511-580, 626-699, 745-973, strtk_serializer_example.cpp 33-287, 574-995 (example programs), strtk_tokenizer_test.cpp 53-113, 548-723, 1327-1438, strtk_text_parser_example01.cpp 44-76, strtk_text_parser_example02.cpp 36-118, strtk_parse_test.cpp 75-155 |

### Not modelled

* Template overload resolution; the 1- to 12-argument overloads generated by hand are modelled once, as lists. `tools/arity.py` checks on the source text that each of the 162 overloads uses its numbered parameters once and in order.
* Fused floating-point operations (C30 is proved over exact, abstract and p-bit rounded arithmetic, C140, C143 and C162 over IEEE double and float, C184 over x87 extended precision, with overflow and underflow), locales, memory allocation failure other than in Bloom filters (C160), tries (C161), token grids (C171), parse (C173) and the functions that write to a string (C179, C189), exceptions of user callbacks other than those of C169, C172, C173, C174 and C187.
* Threads: the library has no shared state that it changes except the static table of `n_choose_k`, which is modelled as state passed between calls, and in C156 as memory shared by threads whose single accesses are atomic and interleaved. Weaker memory models are not modelled; C156 shows where there are no data races, and there they make no difference.
* The regular expression engine (`strtk_enable_regex`: its matches are an argument), the `strtk_enable_lexical_cast` branch, the random number engines (`strtk_enable_random`: their numbers are arguments), the Windows branch of the timer.
* String to a type without converter of its own (17254-17281): the overload has a template parameter that cannot be deduced, so no call selects it.
* Overloads that cannot be instantiated: the copy constructor of `range_to_ptr_type_iterator` (3044) and with it `parse_n` to a pointer (9692); `parse_n` on a
  pair of iterators (9722-9794 call `parse` with the constant `n` as a target); a container as thirteenth to sixteenth target of `parse` (9811-9862 look at the
  type of the twelfth); `join_if(delimiter, predicate, sequence)` (11361-11369 calls `join`); `signed_numeric_convert<N>` (13653); `read_pod` of containers
  (19252-19288).

## Disagreements between the properties and the code

For each, the theorem that refutes the property (or shows the undefined behaviour) and the `_partial` theorem that remains are in MANIFEST.json.

* C05/C06: with all three split option bits set the iterator and `split` disagree; `split_n` treats `include_all_delimiters` like `include_1st_delimiter`.
* C11, C18, C40, C70, C72: bytes from 0x80 on index tables with a negative number or reach `toupper` with one.
* C12, C93: `remove_trailing` / `trim_trailing` keep one character of a text of removable characters only.
* C15: `match` accepts some non-matching texts, misses some matches and can read behind the text, as soon as `*` occurs.
* C16: `find_all` with an empty pattern does not terminate.
* C21: neither decoder validates its input; base64 reads behind texts shorter than two characters.
* C23: the string overload of interleave writes out of bounds.
* C25: the element-wise Hamming distance loops forever.
* C28/C29: the least `int` / `long long` overflows while being parsed; `long` and `unsigned long` accept only 32-bit values.
* C30: a fraction of 2^32 + k digits is scaled like one of k digits; stray character after `e` accepted before a suffix; table over-read for more than 615 fraction digits or an exponent below -615;
  exponents above 308 multiply by ten; digits before `inf`/`nan` are accepted.
* C31: no range check in the fast converters (unsigned targets: everything modulo 2^bits); empty signed input is dereferenced.
* C32, C77: short hex numerals land in the wrong bytes; the base64 number sink never succeeds.
* C39: `cut` with r1 < r0 delivers the whole tail.
* C41-C43: `n_choose_k(0,0)` is 0; factorials overflow from k = 22; the complement of `nth_combination` overwrites through plain iterators.
* C46: the 32-bit byte swap loses two bytes.
* C47-C49: length fields of 32 bits, nested containers accumulate, tight buffers cannot be read back, right padding over-reads.
* C51: overlapping `memcpy`; insertion behind the end is unchecked.
* C52: `match_atleast_n` misses runs reaching the end; `split_on_consecutive_n` returns one match too many.
* C53: trie keys that share all but the last character share a value.
* C54-C56: copying a bloom filter reads uninitialised members; compressing by more than half writes out of bounds; 32-bit length field in files.
* C57: up to 31 trailing bytes of a text are ignored by the hash.
* C59: empty and malformed numeric keys are accepted.
* C61, C63-C66, C85-C87: `token_grid` (stale column counts, ignored ranges, un-advanced output iterators, last token of the last row lost in
  joins, partitions missed, unbalanced quotes, counts, reads of the next row).
* C107-C109: `range(a)` is rejected by grids with more than one column; a failed load frees the caller's buffer or leaves dangling rows; `parse_n` returns 0
  after appending values.
* C113: `type_length` of `long` and `unsigned long` is too short for 64-bit values. C114: assigning a tokenizer keeps the old predicate but takes over the cached first
  token.
* C110: assigning an inserter copies containers; `*(out++) = x` loses the state of function objects.
* C67, C88: a full disk is reported as success; copying a file onto itself empties it; inverted flags; missing return.
* C68: n = 0 means all lines.
* C69: begins_with / ends_with decide equality. C92: copies of a condition dangle.
* C71: not the least rotation in general (`121`). C74: the wildcard filter's flag is inverted. C75: over-read. C81: a generator returning 1.0.
* C96: a copied handle dangles when the original dies. C97: a parse into an attribute is not remembered. C99: `make_value_list` relies on which
  of several equal entries `multimap::find` returns.
* C102: numbers without a point move the iterator behind the text, or take the next token for the fraction ("12,34" is 12.34); a digit too many is skipped. C103: uninitialised element count.
* C13: on plain iterators `replace_pattern` writes all pieces to the same place. C104: `s *= n` gives n+1 copies. C105: ranges compared with bounds from 2^63
  on get the opposite answer. C106: views of `char` and `unsigned char` convert to an empty text.
* C118: a copy of a filled trie shares its nodes, and both destructors delete them; assigning to a filled trie loses its nodes.
* C119: the value of `it++` shows the combination after the step, because copies share the range; an empty range has no combination.
* C120: the probabilities 0, above 1 and NaN are accepted and lead to undefined conversions; a requirement below one bit gives a table without cells.
* C121: `split_regex_n` with `token_count == 0` delivers one token.
* C125: loading a reader's buffer from a file that is too short returns `true` and leaves old bytes in place.
* C126: the IPv4 parser ignores what follows a fourth dot, takes an empty piece as 0 and takes numbers modulo 2^32.
* C130: `parse(argc, argv, t1, ...)` reads `argv[1]` to `argv[argc]`: with main's arguments the first is skipped and the null pointer at the end is made into a string.
* C131: `remove_leading`, `remove_trailing` and `remove_consecutives_inplace` with a character string ignore its characters from the 257th on.
* C133: with `*.hpp`, the use its help text shows, strtk_glober reads behind the end of every nonempty line without a '.'; `*` stops at the first occurrence of the character behind it, so `*.gz` does not match `a.tar.gz` (C15).
* C136: the period parser needs all four units; `5H` is refused, since the empty token behind the last letter is converted, too, and text behind the fourth field is ignored.
* C138: example03 of strtk_nth_combination_example.cpp announces to iterate from the fifth combination to the end; without `complete_index` it shows the fifth one only.
* C139: strtk_numstats calls std::nth_element on the values of a column; a cell `nan` is accepted as a number and breaks its precondition.
* C140: digit strings worth 10^309 or more overflow before the exponent or the position of the point is applied: `0.` followed by 310 ones is read as infinity. Exponents from 309 on are applied by std::pow(10, 10 * exponent), always infinite: 0.001e310 is infinity, 0e309 is NaN (both accepted).
* C141: "one, two." gives three tokens: the empty token behind the last delimiter is appended and counted.
* C142: filter_on_match calls std::toupper with plain char values; text with UTF-8 characters is undefined behaviour.
* C143: the largest doubles (above 1.7976931345e308, among them numeric_limits<double>::max()) are written as 1.797693135e+308, which is read back as infinity.
* C154: a negative number shorter than its zero-padded field is written as zeros and then the sign, which the reader rejects.
* C156: `initialize_n_choose_k` stops at n = 99, so calls with n = 100 still write to the shared table; before any call both first callers clear the table, and one of them can read a cleared entry and return a wrong value.
* C158: a text file that was cut short loads without complaint, with the last number or line shortened; `reader(stream, length)` completes a value from what the buffer held before.
* C159: an event with an empty name is not read at all, since runs of delimiters count as one; ids from 2^32 on are rejected.
* C160: `operator =` deletes the old table before it asks for the new one, so a failure leaves a dangling pointer; `read_from_file` keeps the file's buffer in a plain pointer while vectors grow; `compress` exchanges the tables before it records the new size.
* C161: a node is lost if the vector that should hold it cannot grow; a failed insertion can make keys appear that were never inserted.
* C163: `nan` lies in every range; see also C29, C70, C93.
* C164: only base64 decoding, `bitwise_transform`, raw hexadecimal decoding and replacements of equal length may write over their input. Encoding a string into itself writes behind it; hexadecimal decoding loses the second half; `remove_pattern` of a string from itself keeps characters that should move or leaves the string; `replicate(n,s,s)` gives 2^n copies.
* C166: a refused `read_from_file` has already emptied the filter; an accepted file is not checked for consistency; a compressible filter does not adopt the sizes of the file.
* C167: `write_to_file` ignores the result of its last write and returns `true` on a full disk.
* C168: `insert` is a read followed by a write, so threads that insert lose each other's bits and counts; inserting while another thread asks is a data race.
* C169: `remove_row_if` and `remove_token_if` write the shifted row index while they ask the predicate and remove the tokens only at the end; after an exception rows show tokens of other rows.
* C171: a file load that fails while the grid has a buffer of the caller's deletes that buffer, at once or with the grid; a grid whose file load got no buffer still shows rows in deleted memory (C108); a constructor that throws leaks the content of the file.
* C175: `parse` reads the text through addresses taken at the call, so the text as a target before the last, and `parse(v[k],delimiters,v)` for a vector that must grow before the last field, are undefined.
* C176: numbers with digits on both sides of the point are rounded twice: "1.14" is read as 0x1.23d70a3d70a3ep+0, not as the nearest double 0x1.23d70a3d70a3dp+0 that a compiler takes for the literal, by `decimal_sink` and by the ordinary conversion.
* C177: a timer that runs, or whose clock was set back, reports more than 18446744073708 seconds instead of an error.
* C178: the `pregen` argument of `uniform_real_rng` has no effect: it advances `rng_`, while the numbers come from the copy of the engine inside `rnd_`.
* C179: `replicate` computes the size to reserve on 64 bits; if it overflows, the request is too small and a later refusal leaves some of the copies.
* C180: a container of deques, lists, queues or sets is read through one object that is not cleared, so `k` inner containers of `m` bytes take memory for `m*k*(k+1)/2`.
* C181: for a false positive probability below 2^-54 (5.5e-17), accepted by `operator!`, `1.0 - pow(p, 1)` is 1.0, the requirement is minus infinity, and its conversion to an integer is undefined. For one of 1 - 2^-45 or more `pow(p, 1.0 / 999)` is 1.0, the requirement comes out as zero bits, and the table gets the least allowed size whatever the number of elements.
* C182: `type_name` of a pair does not see the overloads for containers, so a container within a pair is `Unknown`; so is a container within a container, and plain `char` and `bool`.
* C184: `pow10` keeps its powers of ten as `double` and works out those beyond 308 as `pow(10, 10 * exponent)`. For `long double` every exponent from 309 on therefore gives infinity (or not-a-number for zero), every one from -309 to -4931 gives zero, and every one below reads the table out of its bounds, though the type reaches from 1e-4951 to 1e4932. More than 308 digits behind the point are ignored, more than 4931 read the table out of its bounds. Within the limits the result has the accuracy of `double`, not of `long double`: `1e23` is read as 99999999999999991611392.
* C185: of the `long double`s, those from 9.9999999995e308 on come back infinite, those from 9.9999999995e-4932 to 9.9999999995e-309 as zero, and reading back the text of a smaller one is undefined.
* C188: strtk_tokenizer_cmp.cpp adds 400000 times 920 numbers up in an `int`; the sum overflows at the 381st. The list also contains -2147483648, whose conversion overflows (C29). Its string to double test prints an error of 1 for the two integers -2^53 and -1.
* C190: `join_row(row, s, s)` and `join_column(col, s, s)` append the growing text as delimiter; joining into the string that was loaded reads tokens that have moved when the string has no room.
* C191: "90071992547409929" is converted to a larger `double` than "90071992547409930", and "1.14" to a larger one than "114e-2": every digit behind the sixteenth adds a rounding, and the fraction is rounded before it is added. "0.5" with 309 to 614 zeros behind it is converted to infinity by `double`, and with 308 to 1999 zeros to zero by `long double`.
* C174: after an exception of the predicate the tokenizer goes on behind the characters already scanned, which are then in no token. `operator++` sets the end of the shown token before it asks about the last character, so an exception there shows the previous token stretched to the end of the text. The last character is asked about twice; with compressed delimiters the first character of each token is too.
* C172: the final test of `split` and `split_n` asks the predicate about the last character a second time; with the first delimiter kept and delimiters compressed, and with all delimiters kept, other characters are asked about twice too. With all delimiters kept a predicate whose answers alternate makes `split` loop for ever and send tokens without end.
* C145: nth_combination_sequence has complete_index = true by default, so the program prints 0000 | 012345 | ABCDEF where its description has 0000 | 0123 | ABCD.
* C124: `type_to_string` writes a real with ten significant digits, so a `double` that needs more (every integer of 11 to 13 digits that is
  not a multiple of ten) does not come back.
* C122: with `strtk_use_lut` a `char` from 0x80 on is a negative index of the digit table.
* C52: the length of a range is cut to 32 bits; in a range of 4 GB nothing is found.
* C83: 1 to 3 bytes are written in front of the buffer. C94: prefix matching and over-read.

Code that does not compile when instantiated, or has no meaning (seen while reading, not modelled): `range::type` of pointers, arrays and sequences (979-1001); the set and sequence overloads of the memory
`read_pod`/`write_pod`; `column_selector` with 11 and 12 columns (22596-22611: wrong return type) and the 10-argument implementation (22180);
`join_if` of a sequence returning a string (11368: wrong argument order); `signed_numeric_convert<N>` on `-` (13653: missing return);
`parse_n` of a range given as a pair (9725-9800: calls `parse` with the count as a target); `parse_n` into a pointer (9691-9719): the copy constructor of `range_to_ptr_type_iterator` (3044) leaves a reference member uninitialised; `split_on_consecutive_n` with a predicate (16193-16240: no template
takes the three explicit arguments); `type_length` of a class type (18154); `imatch` of a text with a container of texts (2023-2051: the loop is written for a pointer);
`join` of a priority queue and `bracketize` of a queue or stack (11212, 11542-11543: no `begin`); `tokenizer::assign` of a constant text (2550).
