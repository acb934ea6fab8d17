# Formal model of dynareadout in Lean 4

## Trusted base

* Lean 4.33.0's kernel. All theorems use at most the three standard axioms `propext`, `Classical.choice` and
  `Quot.sound` (list per theorem at the end). There are no axioms of our own and nothing rests on compiled code; `decide +kernel` is evaluated by
  the kernel.
* The faithfulness of the hand-written model. Every definition under `lean/Verif/` cites the file and lines of
  /repo it models, or says that it is part of a specification or an auxiliary. The C and C++ code was read as text and not executed.
* The statements. Each property theorem is stated with definitions from the model (what the program does) and
  from specifications that do not mention the model: record lists and encoders (`BinoutLemmas`, `BinoutSpec`), lexicographic order (`CStr`),
  components (`PathView`), the words of a family (`D3PlotLemmas`: `wordAt`), numerals (`CardFloat`), text level semantics of key files
  (`Props/KeyMeaning`), and so on.
* C semantics assumed: x86-64 Linux, little endian, `char` signed, `size_t`/`uint64_t` 64 bit; `malloc`/`realloc`/`fopen` of
  existing files succeed unless said otherwise; files do not change while they are read (C65 is the exception: there they may shrink or vanish); asserts
  are enabled; the thread safe build (no `NO_THREAD_SAFETY`).

## Modelling conventions

* Bytes are natural numbers, C strings are lists of bytes without the terminator; index-level models use an explicit
  terminator and checked accesses.
* Outcomes (`Common.Res`): `ok a`, `err` (an error reported through the documented channel), `ub` (the C program has executed undefined
  behaviour: out of bounds, use after free, uninitialised pointer, signed overflow, division by zero) and `abort` (an `assert` fails, or for
  the include depth of the key parser: more nested includes than the model's depth). A theorem that concludes `= .ok …` therefore also says that
  no undefined behaviour occurs.
* Loops are structural recursions; where C has `while (1)`, a fuel argument bounds the model and a lemma shows that it always suffices, or the
  model is well founded on the remaining input.
* Threads (C22–C25, C56) are a transition system in which every access to shared memory is a step and the schedule is arbitrary.
* Where the code violates a property, the negation is proved with a concrete witness (names without `_partial`, listed under findings) and the part that
  holds is proved with the suffix `_partial`; if possible the failing inputs are characterised exactly.

## Modelled code

| file | modelled | module |
|---|---|---|
| binary_search.c | all five instances are one algorithm, modelled once with the comparison as a parameter | BinarySearch |
| path_view.c, path.c | new, advance, strcmp, stralloc, join, move_up, is_abs; file system queries are a parameter | PathView, Path |
| string_builder.c | all | StringBuilder |
| binout_directory.c | inserts and lookups; not the release of memory | Directory |
| binout.c | open with all records, errors and clean-up; type id, exists, children, number of timesteps, simple paths, error strings; not `binout_close` | Binout, BinoutSimple, BinoutSession |
| binout_read.c | single and timed reads, one model for the ten types | BinoutRead |
| multi_file.c, sync.c | access, return, seek, read, closing of idle handles, as a transition system; pthread mutexes are primitive | MultiFile |
| d3_buffer.c | open with word size detection and family, read, skip, seek, next file | D3Buffer |
| d3plot.c, d3plot_data.c, d3plot_state.c | open (control data, all geometry sections, state scan), ids, node data, times, title, run time, element states, elements, parts, mean of surfaces; the `_32` variants only where they share the macro; part titles not | D3Plot, D3Read, D3Elements |
| d3plot_part_nodes.c, pgni.h | all | D3PartNodes |
| line.c, extra_string.c | all but the release of memory | LineReader, ExtraString |
| key.c | parser with includes, message stacks, keyword list, queries, card functions; read errors (`ferror`) not | KeyParse, KeyFile, Card |
| include_transform.c | both parsers | IncludeTransform |
| cpp/array.hpp | Array, String, SizedString: access, comparison, iteration, ownership | CppArray, CppOwn |
| python/conversions.hpp (arrays and strings) | modelled; pybind11 itself is not | `PyArray` |
| python/pybind11_binout.cpp | read, get_type_id, variable_exists, get_num_timesteps | `PyBinout` |
| cpp/binout.cpp, cpp/d3plot.cpp, cpp/array.hpp | ownership of the arrays of read_timed and read_all_node_* | `CppRows` |
| key.c | key_parse_info_t of the callbacks (with the whole parser) | `KeyInfo` |
| multi_file.c:188-261 | access, return, seek, tell, read of builds without thread safety | `MultiFileSingle` |
| d3_buffer.c:98-127, 483-503, 572-692 | the open files of a family in builds without thread safety | `D3Window` |
| key.c:87-710 | memory of key_file_parse, key_file_parse_with_callback, key_file_free | `KeyMem` |
| d3plot.c:1650-2566, 3385-3420, cpp/d3plot_state.cpp, cpp/array.hpp (copies, destructors) | memory of d3plot_read_shells_state, d3plot_read_thick_shells_state, d3plot_read_beams_state, the functions that free them, and C++ objects of states | `StateMem` |
| cpp/d3plot_state.cpp:36-121, cpp/d3plot_state.hpp:38-102 | accessors of D3plotShell, D3plotThickShell, D3plotBeam | `CppState` |
| multi_file.c:35-55, path.c:286-341 | the path a handle stores: path_is_abs, path_working_directory on both platforms | `PathOpen` |
| cpp/d3plot.cpp:481-554, cpp/array.hpp:279-299, cpp/vec.hpp:41-51 | stream operators (`str` in Python); the format of floating point numbers is a parameter | `CppPrint` |
| sync.c:31-136 | locks on both platforms; events and mutexes of the operating system as documented | `Sync` |
| d3plot.c:677-1461, 3141-3257, d3_buffer.c:378-407 | conversion between `float` and `double` of times, node data and single words, the `_32` variants (without IU = 2) | `D3Float` |
| binout_glob.c:29-91 | names of files found by a pattern on Windows, cells of the blocks; what is found comes from the operating system | `WinGlob` |
| key.c:1571-1614 | `_parse_multi_line_string` on the cells of its buffer | `KeyName` |
| binout.c:61-347, 757-848, binout_directory.c:35-192, 371-421, multi_file.c:35-145 | memory of binout_open and binout_close | `BinoutMem` |
| d3plot.c:42-500, 1273-1366, 2568-2960, 3035-3198, d3_buffer.c:36-600, multi_file.c:35-145 | memory and file handles of d3plot_open, the reading calls and d3plot_close | `D3Mem` |
| d3plot.c:537-577, cpp/d3plot.cpp:115-123 | ids of all elements | `D3AllIds` |
| d3plot_part_nodes.c:28-129, pgni.h, d3plot.c:537-577 and 3313-3354, cpp/d3plot.cpp:115-123 | memory of the part queries and of all element ids | `D3PartMem` |
| binout.c:348-672, binout_read.c:37-371 | memory and file handles of the calls on an open binout (one handle per file; a look-up reads all names and arrays) | `BinoutCalls` |
| cpp/key.cpp:38-298, cpp/key.hpp:53-310, python/pybind11_key.cpp:126-142 | objects of a key file: configurations, keywords, slices, cards with copies, moves, assignments and destructors (exceptions are caught at once) | `KeyOwn` |
| cpp/key.cpp:300-328 | `KeyFile::parse_with_callback` with any callback; the callback uses its card only, exceptions are caught by the caller | `KeyCallback` |
| python/pybind11_key.cpp:126-148 | `len`, indexing and loops of `Keywords`, `KeywordSlice`, `Keyword`; what pybind11 does with arguments and exceptions is written down, not derived | `PyKey` |
| profiling.c:34-328, profiling.h:37-110, binary_search.c (insert of sections) | the tree of sections in memory, the times, the quick sort and the lines of the report; not the text of the times, the file and the release of the arrays | `Profiling` |
| path.c:97-155, 192-225, path.h:31-39 | moving up and joining real paths, both platforms | `PathReal` |
| python/pybind11_key.cpp | Card.parse, Card.parse_whole | `PyCard` |
| cpp/key.hpp, cpp/key.cpp | Card::parse, parse_whole, Keywords, KeywordSlice | `CppCard`, `CppKey` |
| cpp/d3plot_part.cpp, cpp/include_transform.cpp, cpp/binout.cpp | objects as owners of memory, part queries, exceptions | `CppPart`, `CppPartNodes`, `CppTransform`, `CppHandle` |
| binout_glob.c:95-125 (POSIX: `glob` does the work), other C++ wrappers, other Python bindings | not modelled (operating system, timing, or thin forwarding) | – |

Floating point: C57 and the averages of C39 are proved for an abstract arithmetic (`Arith`) and, in value, for exact rationals; the rounding of `float`/`double`
is not modelled. Memory exhaustion is not modelled. Releasing memory is modelled for the C++ objects (C58, C74, C76, C77).

## Properties: what is modelled and how it is proved

* **C01 Id lookup is exact** (proved) — model `BinarySearch`. Recursion over an index range with a checked array reader; induction on the size of the range. *Note:* Empty id list is undefined behaviour (c01_empty_is_ub); the property excludes it.
  Theorems: `c01_index_for_id_exact`, `c01_empty_is_ub`.
* **C02 Sorted insertion point is exact** (proved) — model `BinarySearch`. Same with the insertion variant; specification: every element before the position is smaller, every one from it on is larger.
  Theorems: `c02_directory_insert_point`, `c02_keyword_insert_point`.
* **C03 Path components** (proved) — model `PathView`. Index-level model of new/advance; refinement to "split at separators and drop empty pieces".
  Theorems: `c03_path_components`, `c03_components_of_pieces`.
* **C04 Component comparison agrees with the sort order of names** (partial) — model `PathView, CStr`. Signed character comparison against unsigned lexicographic order; negation by witness. *Missing or false:* False for bytes >= 0x80 (witness theorem); proved for 7-bit names; equality exact for all bytes.
  Theorems: `c04_order_disagrees_non_ascii`, `c04_comparison_partial`.
* **C05 path_join** (proved) — model `Path`. List model of path_join; theorem on the components of the result.
  Theorems: `c05_path_join`, `c05_path_join_text`, `c05_empty_lhs_is_ub`.
* **C06 path_move_up** (partial) — model `Path`. Index model of path_move_up. *Missing or false:* False for relative paths (witnesses); proved for absolute paths, the only ones binout uses.
  Theorems: `c06_relative_wrong`, `c06_relative_wrong'`, `c06_path_move_up_partial`, `c06_relative`.
* **C07 Directory order invariant** (proved) — model `Directory`. Tree of entries; the order invariant is preserved by both insertions; induction over histories.
  Theorems: `c07_children_sorted`.
* **C08 Last writer wins** (proved) — model `Directory`. Refinement to "last record with that path" over histories of insertions. *Note:* Histories quantify over all op lists; c08_non_ascii_not_found shows why the 7-bit restriction in the property is needed.
  Theorems: `c08_last_writer_wins`, `c08_non_ascii_not_found`.
* **C09 Children listing is complete** (proved) — model `Directory`. get_children characterised by the inserted paths.
  Theorems: `c09_children_complete`.
* **C10 Lookups only depend on components** (proved) — model `Directory`. Queries factor through the components of the path.
  Theorems: `c10_only_components_matter`.
* **C11 A name is never silently both file and folder** (partial) — model `Directory`. Entries carry whether their name memory has been released; witness of the use after free. *Missing or false:* False when a file is written over a folder (use after free witness); proved for all other histories.
  Theorems: `c11_file_over_folder_is_ub`, `c11_clash_partial`.
* **C12 Record round trip** (proved) — model `Binout`. Encoder of record lists (any field widths); decoder is the model of the record loop; round trip by induction over records.
  Theorems: `c12_round_trip`.
* **C13 Parsing terminates and stays inside the file** (partial) — model `Binout`. The loop as a function of fuel; termination for files whose record lengths cover their fixed parts, bound on every entry; witnesses otherwise. *Missing or false:* False for record lengths shorter than the record's own fields: infinite loop and 2^64-2 byte variable (witness theorems); proved for all byte sequences whose lengths cover their fixed parts.
  Theorems: `c13_seek`, `c13_terminates_inside_partial`, `c13_zero_length_loops`, `c13_huge_variable`.
* **C14 Unknown records are ignored** (proved) — model `Binout`. Opening the encoding with and without the other records gives the same tree.
  Theorems: `c14_unknown_records_ignored`, `c14_skip`.
* **C15 Change-directory semantics** (partial) — model `Binout`. Step function on the path string against a stack of components. *Missing or false:* Deviates for CD to root, above root, '//'(witness theorems); proved for all other sequences.
  Theorems: `c15_cd_resolution_partial`, `c15_path_limit`, `c15_cd_root_ignored`, `c15_root_witnesses`.
* **C16 Truncated or damaged files are reported** (proved) — model `Binout`. Every proper cut of an encoding, and every damaged header.
  Theorems: `c16_truncated`, `c16_header_damage`, `c16_cut_is_reported`, `c16_data_before_cd_aborts`.
* **C17 Variables stay attached to their file** (partial) — model `Binout`. File table with the swapping clean-up; exact association for sets of well formed files. *Missing or false:* False if a file of the set fails to parse (witness theorem); proved for sets of well formed files.
  Theorems: `c17_file_association_partial`, `c17_failed_file_breaks_others`.
* **C18 binout_read returns the payload** (proved) — model `BinoutRead`. Result equals the slice of the encoded payload, for all sets of well formed files.
  Theorems: `c18_read`.
* **C19 binout_read_timed concatenates the timesteps** (partial) — model `BinoutRead`. Loop over time steps with a checked result buffer. *Missing or false:* False for varying sizes (buffer overflow), index mismatch in sub folders and missing components (witness theorems); proved for uniform time steps.
  Theorems: `c19_read_timed_partial`, `c19_name_order_is_time_order`, `c19_varying_size_overflows`, `c19_wrong_variable`, `c19_missing_component_skipped`.
* **C20 Number of timesteps** (partial) — model `BinoutRead`. Search of first and last d-folder. *Missing or false:* Exact for every folder (c20_exact): the number of names from the first to the last time step, or ~0 if the first name is a variable. Violated if other names lie between them or variables before them (c20_witnesses); c20_unknown covers unknown paths.
  Theorems: `c20_num_timesteps_partial`, `c20_unknown`, `c20_exact`, `c20_span`, `c20_witnesses`.
* **C21 Error texts accumulate** (proved) — model `Binout`. Fold of the messages of the failing files.
  Theorems: `c21_error_string`, `c21_no_files`.
* **C22 File handles are exclusive** (proved) — model `MultiFile`. Invariant over all reachable states of the transition system.
  Theorems: `c22_exclusive`.
* **C23 Concurrent reads see the right bytes** (proved) — model `MultiFile`. Positions per FILE object; bytes read are those of the content at the thread's own position.
  Theorems: `c23_reads`.
* **C24 Idle handles are reused** (proved) — model `MultiFile`. Invariant between number of handles and simultaneous users.
  Theorems: `c24_handles_are_reused`, `c24_failing_open_grows`.
* **C25 Closing idle handles is safe** (proved) — model `MultiFile`. Kill-idle transitions; safety in every state and effect at the end of the call.
  Theorems: `c25_held_file_is_open`, `c25_no_undefined_behaviour`, `c25_idle_files_are_closed`.
* **C26 Word reads are slices of the concatenated family** (proved) — model `D3Buffer`. Cursor (file, offset) over a list of files against their concatenation.
  Theorems: `c26_read_is_slice`.
* **C27 Reads beyond the end are errors** (partial) — model `D3Buffer`. Exact condition for success and failure. *Missing or false:* False for positions whose byte offset does not fit into 64 bits (witness theorem); proved for all others.
  Theorems: `c27_errors_partial`, `c27_read_from_pointer`, `c27_huge_position_accepted`, `c27_closed_pointer`.
* **C28 Consecutive reads compose** (proved) — model `D3Buffer`. Corollaries of C26 with the final position.
  Theorems: `c28_read_read`, `c28_skip_read`, `c28_skip_to_end_is_error`.
* **C29 Word size detection** (partial) — model `D3Buffer`. Decision function on the five header words of both interpretations. *Missing or false:* Families shorter than 184 bytes are undefined behaviour (witness theorem); proved for all longer ones.
  Theorems: `c29_word_size_partial`, `c29_short_family_is_ub`.
* **C30 File family enumeration** (proved) — model `D3Buffer`. Loop over numbers with an existence predicate.
  Theorems: `c30_family`, `c30_open`, `c30_no_root`.
* **C31 Geometry layout** (partial) — model `D3Plot`. Opening as a state monad over the buffer; positions of the sections as sums of control words. *Missing or false:* Proved for control words below 2^32; files with larger words overflow (witness theorem), and a gap of 2*|NEL8| words for ten node solids is not described by the pointers (witness theorem).
  Theorems: `c31_geometry_partial`, `c31_overflow_accepted`, `c31_ten_node_solids_gap`.
* **C32 State addressing** (proved) — model `D3Plot, D3Read`. Induction over the states of all files of a family: pointers found against stored positions; every per-state call reads there.
  Theorems: `c32_states`, `c32_displacements_rejected`.
* **C33 State out of range is an error** (partial) — model `D3Read`. Guards of the calls. *Missing or false:* False for element kinds of which the file has none (witness theorem); proved for all other calls.
  Theorems: `c33_out_of_range_partial`, `c33_no_elements_no_error`.
* **C34 Reading all states equals reading each state** (partial) — model `D3Read`. Loop over the states against the per-state call. *Missing or false:* False for node data that is not in the file (witness theorem); proved otherwise.
  Theorems: `c34_all_time`, `c34_all_node_data_partial`, `c34_absent_data`.
* **C35 Connectivity indices are zero-based** (proved) — model `D3Read`. Tables decoded word by word.
  Theorems: `c35_connectivity`.
* **C36 Part contents** (proved) — model `D3Read`. Selection loop against a filter over the element tables. *Note:* By index for all files; by id for ascending ids; unsorted ids are not found and missing ids (NARBS = 0) return header words (witness theorems).
  Theorems: `c36_part`, `c36_part_by_id`, `c36_unsorted_part_not_found`, `c36_missing_ids`.
* **C37 Union of sorted id lists** (partial) — model `D3Read`. Insertion of a sorted list at one place. *Missing or false:* False for interleaving lists and undefined for others (witness theorems); proved for lists that fit in one place; multiset preservation for all.
  Theorems: `c37_exact`, `c37_insert_partial`, `c37_touching`, `c37_nothing_lost`, `c37_interleaved_not_sorted`, `c37_overlapping_copy`.
* **C38 Element state decoding is memory safe** (partial) — model `D3Elements`. Decoders with a checked data cursor and checked result memory. *Missing or false:* False in four ways for accepted control data (witness theorems); exact characterisation of the undefined behaviour for solids, thick shells, shells and beams.
  Theorems: `c38_shells_exact`, `c38_thick_exact`, `c38_thick_overflow`, `c38_beams`, `c38_beam_memory`, `c38_solids`, `c38_solids_exact`, `c38_memory_safe_partial`, `c38_solid_too_short`, `c38_solids_exact_example`, `c38_strain_flag_unset`, `c38_thick_heap_overflow`, `c38_shell_strain_guess`.
* **C39 Shell integration point decoding** (proved) — model `D3Elements`. Decoded points against stored blocks; mean of surfaces with exact arithmetic. *Note:* Shells and thick shells; the mean with less than three points is undefined (witness theorem).
  Theorems: `c39_shell_points`, `c39_thick_points`, `c39_mean_points`, `c39_mean_of_two_points`.
* **C40 Control data derivation** (proved) — model `D3Plot`. Derived control data against the control words of every family that opens.
  Theorems: `c40_deletion_round_trip`, `c40_digits`, `c40_derived`, `c40_strain_flag`, `c40_output_flags`, `c40_strain_flag_thick`, `c40_strain_flag_unset`.
* **C41 Line splitting is independent of chunking** (partial) — model `LineReader`. Chunked reader with explicit memory against splitting at newlines. *Missing or false:* Proved for every chunk size that does not divide the file size, if the uninitialised line memory has no newline or the file fits into one chunk (every non-empty file < 1 MiB). Otherwise the code is wrong: c41_extra_line, c41_stale_newline. Termination and memory safety hold for all inputs (c41_safe).
  Theorems: `c41_lines_partial`, `c41_lines_multiple`, `c41_chunks`, `c41_small`, `c41_safe`, `c41_extra_line`, `c41_stale_newline`.
* **C42 Comment detection** (proved) — model `LineReader`. First position of the comment character, carriage returns not counted.
  Theorems: `c42_comment`.
* **C43 Keyword/card event sequence** (partial) — model `KeyParse`. Line loop against a grouping specification on lines. *Missing or false:* Exact callback sequence proved for every file without *INCLUDE lines (c43_callbacks_partial); for files with includes c43_calls_well_formed and C53. Empty files report an empty keyword (c43_empty_file), very long header lines are undefined behaviour (c43_long_header_ub).
  Theorems: `c43_callbacks_partial`, `c43_empty_file`, `c43_long_header_ub`, `c43_calls_well_formed`.
* **C44 Keywords are grouped stably** (partial) — model `KeyFile`. Sorted insertion with checked accesses; stability; exact condition of the overrun. *Missing or false:* c44_key_file_parse holds for all files; the keyword list theorem is partial because a third block of the last sorted name overruns the list (c44_overrun_ub, exact condition).
  Theorems: `c44_keyword_list_partial`, `c44_overrun_ub`, `c44_keyword_list_at_most_twice`, `c44_keyword_list_perm`, `c44_key_file_parse`, `c44_text_to_list_partial`.
* **C45 key_file_get** (partial) — model `KeyFile`. Search, walk to the front, walk forward, with checked accesses. *Missing or false:* Proved for all indices but the ones of c45_get_ub, for which the code reads outside the list (exact condition).
  Theorems: `c45_key_file_get_partial`, `c45_key_file_get_existing`, `c45_get_ub`.
* **C46 key_file_get_slice** (partial) — model `KeyFile`. As C45. *Missing or false:* Proved but for the first sorted name occurring more than once, where the slice misses the first block (c46_slice_misses_first).
  Theorems: `c46_slice_misses_first`, `c46_key_file_get_slice_partial`, `c46_slice_first_name`.
* **C47 Card field cursor** (partial) — model `Card`. Cursor model with 8 bit counters. *Missing or false:* Proved for cards of at most 255 characters whose length is a multiple of the width. Otherwise the code reads behind the terminator (c47_short, c47_short_all) or does not end (c47_long).
  Theorems: `c47_cursor_partial`, `c47_next_width`, `c47_short`, `c47_short_all`, `c47_long`.
* **C48 Integer fields** (partial) — model `Card`. Digit loop against decimal numerals; exact acceptance for fields up to 18 characters. *Missing or false:* The round trip (c48_int) is complete for |v| <= 2^63-1, and c48_exact says exactly what is done with every field of any width that ends before character 256. Violated: the code is more lenient than the property (c48_lenient) and overflows (c48_overflow).
  Theorems: `c48_int`, `c48_field_partial`, `c48_exact`, `c48_lenient`, `c48_overflow`.
* **C49 String fields** (proved) — model `Card`. Trimming loops against a trim on lists.
  Theorems: `c49_string`, `c49_round_trip`, `c49_whole`, `c49_no_trim`, `c49_no_trim_short`.
* **C50 Field type classification agrees with the parsers** (partial) — model `Card`. Classification automaton against the two parsers. *Missing or false:* Complete for floats in fields of up to 11 characters (never an error in any width); for integers the code violates the property for a plus sign (c50_plus).
  Theorems: `c50_exact_int`, `c50_exact_float`, `c50_safe`, `c50_float`, `c50_float_no_error`, `c50_int_partial`, `c50_plus`, `c50_wide`.
* **C51 Emptiness test** (partial) — model `Card`. Loop with an 8 bit counter. *Missing or false:* Exact for fields that end before character 256; behind that the 8 bit counter wraps (c51_wrap, c51_endless).
  Theorems: `c51_empty_partial`, `c51_wrap`, `c51_endless`.
* **C52 String building** (proved) — model `StringBuilder`. Capacity invariant and concatenation over all histories of calls.
  Theorems: `c52_string_builder`.
* **C53 Include resolution** (partial) — model `KeyParse, KeyName`. First-match search over the directories.; the assembly of names is also modelled on the cells of the buffer, and the function on texts is shown to be what the one on cells does (refinement), by induction over the cards *Missing or false:* c53_include_partial: one include line of at least two characters and not absolute; absolute and one character names fail (witness theorems), self inclusion never ends (c53_self_include).
  Theorems: `c53_search`, `c53_include_partial`, `c53_include_path`, `c53_include_path_relative`, `c53_search_list`, `c53_included_like_main`, `c53_absolute_inside`, `c53_absolute_not_found`, `c53_short_name_ub`, `c53_comment_keeps_blank`, `c53_self_include`, `c53_name_memory`, `c53_name_cards`, `c53_name_exact`.
* **C54 Array bounds** (partial) — model `CppArray`. Checked accesses; comparison loops against equality of texts. *Missing or false:* Exact for arrays, strings and sized strings against texts. String against SizedString is false for long texts (c54_mixed_eq_exact gives the exact condition).
  Theorems: `c54_array_at`, `c54_array_set`, `c54_array_iter`, `c54_array_eq`, `c54_string_text`, `c54_string_at`, `c54_string_eq`, `c54_string_eq_std`, `c54_std_cut`, `c54_sized_eq`, `c54_sized_eq_std`, `c54_sized_str`, `c54_mixed_eq_exact`, `c54_mixed_eq_partial`, `c54_mixed_eq_wrong`.
* **C55 Errors do not outlive the failing call** (partial) — model `D3Read`. Histories of calls on one open database. *Missing or false:* A failed file access is undefined behaviour (witness theorem); proved for all histories without it.
  Theorems: `c55_history_partial`, `c55_failed_access_is_undefined`.
* **C56 Shared file access never deadlocks** (proved) — model `MultiFile`. Progress: in every reachable state some thread inside a call can step; termination measure of the critical section.
  Theorems: `c56_no_deadlock`, `c56_section_terminates`.
* **C57 Floating point fields** (proved) — model `Card, CardFloat`. Parser against numerals (sign, digits, fraction, exponent) with an abstract arithmetic, and values with rationals. *Note:* Value with exact arithmetic; rounding of float/double is not modelled.
  Theorems: `c57_reject`, `c57_error_iff`, `c57_value`, `c57_position`, `c57_int`, `c57_dot_exponent`.
* **C58 C++ arrays are values and own their memory** (partial) — model `CppOwn`. Heap of blocks and objects; histories of construct, copy, move, assign, write, destroy refine a value semantics. *Missing or false:* Value semantics for all histories; memory is given back unless an array is assigned to, in which case it is lost (c58_assign_leaks). malloc is assumed to succeed.
  Theorems: `c58_arrays_are_values`, `c58_no_leak_partial`, `c58_assign_leaks`, `c58_self_assign`.
* **C59 Nodes of a part are exactly the nodes of its elements** (proved) — model `D3PartNodes`. Four loops with the sorted insertion; result characterised by membership and order. *Note:* Proved for plots whose element ids are ascending per kind (which the index search needs). An id of the part that the plot does not have makes the code index out of bounds: c59_missing_id_ub.
  Theorems: `c59_part_node_ids`, `c59_part_node_indices`, `c59_missing_id_ub`.
* **C60 All element ids of a part** (partial) — model `D3PartNodes`. Same for all element ids. *Missing or false:* Proved for parts with elements of one kind only. With several kinds the code ignores the result of realloc (undefined if the block moves, c60_moved_is_undefined) and leaves the list unsorted otherwise (c60_not_sorted); c60_nothing_lost shows that no id is lost when the block stays.
  Theorems: `c60_one_kind_partial`, `c60_nothing_lost`, `c60_moved_is_undefined`, `c60_not_sorted`.
* **C61 Simple paths resolve to real paths** (proved) — model `BinoutSimple`. Search per component against a relational specification on the represented directory. *Note:* Proved. A variable called metadata makes the code follow an unset pointer (c61_variable_named_metadata); after a failed search the timed flag may be set (c61_timed_flag_without_result).
  Theorems: `c61_simple_path`, `c61_existing_path`, `c61_real_path_is_variable`, `c61_timed_variable`, `c61_variable_named_metadata`, `c61_timed_flag_without_result`.
* **C62 Long keyword names and card lines are handled as texts** (proved) — model `ExtraString`. Two-block strings with checked memory against texts; refinement of the parser's text level model. *Note:* Exact results of the six functions for all texts, their use by the parser for keyword names and cards (c62_take_name, c62_card_text refine the text level parser model of C43), and the exact conditions of undefined behaviour. Allocation failures are not modelled.
  Theorems: `c62_compare`, `c62_compare_long`, `c62_compare_very_long`, `c62_compare_164`, `c62_starts_with`, `c62_starts_with_short`, `c62_get`, `c62_cut`, `c62_copy`, `c62_copy_wraps`, `c62_copy_to_string`, `c62_take_name`, `c62_take_name_ub`, `c62_card_text`, `c62_callback_name`, `c62_reader`, `c62_compare_long_witness`, `c62_starts_with_wrong`.
* **C63 INCLUDE_TRANSFORM cards are read column by column** (proved) — model `IncludeTransform`. Column by column specification of the cards. *Note:* Column contents that the code reads otherwise are shown: '+5' in an integer column is 0, '1.' and '.5' are ignored (c63_ignored), an incomplete last column reads behind the text (c63_short).
  Theorems: `c63_include_transform`, `c63_no_cards`, `c63_ignored`, `c63_short`.
* **C64 DEFINE_TRANSFORMATION keeps every option in order** (proved) — model `IncludeTransform`. Card list against list of options. *Note:* A card without columns gives an option named NULL; an incomplete last column reads behind the text (c63_short).
  Theorems: `c64_define_transformation`, `c64_define_transformation_title`, `c64_no_cards`.
* **C65 Binout reads that cannot be satisfied are errors, not partial data** (proved) — model `BinoutRead`. File system between open and read may be smaller; results are complete or an error. *Note:* c65_all_or_error covers variables directly in the time steps (not in a sub folder of them) with one size; the failures for different sizes and sub folders are the witnesses c19_*.
  Theorems: `c65_no_such_variable`, `c65_all_or_error`, `c65_shrunk`, `c65_missing_bytes`.
* **C66 Unsupported or damaged d3plot databases are rejected with an error** (proved) — model `D3Plot`. Both directions: what opens satisfies the conditions, what violates one is an error. *Note:* Acceptance and rejection in both directions for complete single and double precision files. A database with NEIPB = 2^64-5 makes the C code divide by zero; this case is excluded and reported in DESIGN.md.
  Theorems: `c66_accepted`, `c66_rejected`, `c66_file_type`, `c66_supported`, `c66_end_marker`, `c66_marker`.
* **C67 Title, run time and ids of a d3plot database are the words of its header** (proved) — model `D3Plot, D3Read`. Words of the header and of the ids section. *Note:* Part ids are right if NMMAT of the control data is not larger than the number of materials in the ids section; otherwise other words are returned as ids (c67_part_count). Without a section with ids (NARBS = 0) header words are returned (c36 witness).
  Theorems: `c67_title`, `c67_ids`, `c67_part_count`.
* **C68 A key file with include files means what its text says** (proved) — model `KeyParse`. Big-step semantics of key files at text level (mutual relation for lines and files) and equivalence with the parser. *Note:* c68_exact: for all file systems whose files meet the syntactic condition GoodWorld (names of files written as specified), the call returns o if and only if o is the meaning of the file.
  Theorems: `c68_root`, `c68_meaning`, `c68_unique`, `c68_complete`, `c68_exact`, `c68_good_world`.
* **C69 Calls on an open binout answer from the files and leave the message of the last call** (proved) — model `BinoutSession`. Model with the error string as state; induction over the sequence of calls with the directory theorem of C05/C06 for each call.
  Theorems: `c69_sessions`, `c69_long_path_overruns`, `c69_error_or_data`, `c69_type_or_error`.
* **C70 Card::parse<T> returns the number of the field or throws** (partial) — model `CppCard`. Case analysis of the template for each integral type on top of the field theorems of C48. *Missing or false:* Violated by the code for text: a field whose first word is no number is returned as 0 without an exception (c70_text_is_zero, c70_float_text); the rest is proved.
  Theorems: `c70_int_partial`, `c70_text_is_zero`, `c70_float_text`.
* **C71 Card::parse_whole assigns the values of all columns** (partial) — model `CppCard`. Induction over the list of fields with the cursor in step with the columns. *Missing or false:* Violated by the code: a card that ends inside of a field that is not the last one is read behind its end (c71_cut_ub); for all others the values are proved.
  Theorems: `c71_parse_whole_widths_partial`, `c71_parse_whole_partial`, `c71_exception`, `c71_cut_ub`.
* **C72 Keywords[name] and iteration visit exactly the keywords of that name** (partial) — model `CppKey`. Loop induction for the iterators on top of the slice theorem of C46. *Missing or false:* Violated by the code: the first keyword of the first name of the list may be missed (c72_first_name), and a name of more than 990 bytes that does not occur overruns the memory of the message (c72_long_name_ub).
  Theorems: `c72_slice`, `c72_loop_partial`, `c72_first_name`, `c72_long_name_ub`, `c72_slice_outside`, `c72_cards`.
* **C73 Titles of the database and of the parts are the bytes of the file** (partial) — model `D3Titles`. Loop invariants of the two loops over the entries (position of the pointer); both outcomes (inside, outside of the files) are determined. *Missing or false:* Violated by the code: without a section bytes of the control data are returned as titles (c73_no_section), without parts an unset pointer is closed (c73_no_parts_ub), files that end in the section make it follow an unset pointer (c73_exact), the C++ functions cut a title at its first blank and read behind the memory if it has none (c73_cpp_exact, c73_cpp_title).
  Theorems: `c73_part_titles_partial`, `c73_exact`, `c73_no_section`, `c73_no_parts_ub`, `c73_title`, `c73_cpp_exact`, `c73_cpp_title`, `c73_sample_blank`.
* **C74 D3plotPart objects are values** (partial) — model `CppPart`. Heap of blocks and objects as in C58; refinement of a value semantics, invariants for lost blocks. *Missing or false:* Violated by the code: a copy shares the indices of the thick shells with the original, so that destroying both frees them twice (c74_double_free); every copy loses a block (c74_copy_leaks); move assignment loses the memory of the target (c74_move_assign_leaks). Proved for programs that copy no part with thick shells: all values are right and nothing is freed twice (c74_values_partial).
  Theorems: `c74_values_partial`, `c74_double_free`, `c74_copy_leaks`, `c74_move_assign_leaks`.
* **C75 The nodes of a part in C++ are the nodes of its elements** (partial) — model `CppPartNodes`. On top of C59: tables that arrive are tables of the file; general form of the loop with another connectivity. *Missing or false:* Violated by the code: the connectivity of the thick shells is passed on as the one of the solids, so that the nodes of thick shells are returned for solids, or memory behind the table is read (c75_exact, c75_wrong_nodes); the connectivity of solids is never used (c75_solids_ignored). Proved for calls without the connectivity of thick shells.
  Theorems: `c75_node_ids_partial`, `c75_node_indices_partial`, `c75_exact`, `c75_solids_ignored`, `c75_wrong_nodes`.
* **C76 Messages of C++ exceptions and names of children last as long as the objects that hold them** (partial) — model `CppHandle`. Heap of texts with ownership; exact refinement of a specification in which borrowed texts expire. *Missing or false:* Violated by the code: the exception borrows the error string of the file, so that looking at it after the file was destroyed (stack unwinding out of a try block) or after the next call reads freed memory (c76_unwinding, c76_next_call); names are borrowed from the file. c76_exact determines for every program whether this happens; exceptions of the constructor are not affected (c76_open_message).
  Theorems: `c76_exact`, `c76_message_partial`, `c76_unwinding`, `c76_next_call`, `c76_open_message`.
* **C77 IncludeTransform and DefineTransformation objects behave as values** (partial) — model `CppTransform`. Heap of texts, one owner per block; exact refinement to objects without memory, from there to values; invariants of lost and owned blocks. *Missing or false:* Violated by the code: destroying a copy of a DefineTransformation without title (every keyword that is no _TITLE) or without options frees uninitialised pointers (c77_copy_of_untitled), assigning such an object keeps the old title or options of the target (c77_stale_title), assigning an object with options to itself reads uninitialised memory (c77_self_assignment), copying an IncludeTransform without file name duplicates a null pointer (c77_copy_without_file_name), the temperature flag is never freed (c77_fcttem_leaks) and assignments lose what the target held (c77_move_assignment_leaks, c77_copy_assignment_leaks). c77_exact determines the outcome of every program; programs that avoid these cases behave as programs on values (c77_include_transform_partial, c77_define_transformation_partial) and free everything (c77_no_leak_partial).
  Theorems: `c77_exact`, `c77_include_transform_partial`, `c77_define_transformation_partial`, `c77_copy_of_untitled`, `c77_copy_without_file_name`, `c77_stale_title`, `c77_self_assignment`, `c77_fcttem_leaks`, `c77_move_assignment_leaks`, `c77_copy_assignment_leaks`, `c77_no_leak_partial`, `c77_sample_untitled`, `c77_sample_stale`.
* **C78 Mean values of shells are means over all integration points** (proved) — model `D3Mean`. Arithmetic as a parameter; invariant of the sums over the points, on top of C39. *Note:* Violated by elements with less than three integration points (c78_too_few_points, c39_mean_of_two_points).
  Theorems: `c78_mean`, `c78_exact_arithmetic`, `c78_shells_of_file`, `c78_thick_shells_of_file`, `c78_too_few_points`, `c78_sample`.
* **C79 Arrays and strings in Python** (partial) — model `PyArray`. Functions over the cells of the arrays; induction over the loops. *Missing or false:* Violated: text == str does not look at the last character and throws for two empty texts (c79_last_character, c79_empty_text); a text and a longer text that begins with it are not ordered (c79_prefix_not_ordered).
  Theorems: `c79_items`, `c79_list_eq`, `c79_other_eq`, `c79_text_eq_exact`, `c79_text_eq_partial`, `c79_last_character`, `c79_empty_text`, `c79_text_other`, `c79_order_exact`, `c79_mirror`, `c79_order_partial`, `c79_order_same_length`, `c79_prefix_not_ordered`, `c79_view`, `c79_new`, `c79_new_of_list`, `c79_setitem`, `c79_setitem_cut`.
* **C80 Fields of cards in Python have the type and value that is written** (partial) — model `PyCard`. On top of C47-C51 and C57: the cursor in step with the columns, induction over the fields. *Missing or false:* Violated: parse_whole() reads behind every card whose length is not a multiple of 10 (c80_default_cut), with widths behind cards that end inside of a field (c80_cut); '+5' is 0 (c80_plus), a text that begins with a number is this number (c80_words), '1.' and '.5' are texts (c80_dot).
  Theorems: `c80_parse_partial`, `c80_whole_widths_partial`, `c80_whole_partial`, `c80_default_cut`, `c80_cut`, `c80_bad_width`, `c80_plus`, `c80_words`, `c80_dot`, `c80_no_trim`.
* **C81 Binout.read in Python returns the values or the names behind a path** (partial) — model `PyBinout`. On top of C09, C18, C19, C20 and C61 for the opened files; induction over the time steps and the sorted names. *Missing or false:* Violated: a folder without anything in it accesses an empty vector (c81_empty_folder), the empty path is an assertion failure (c81_empty_path), the message for a folder inside of a time step overruns its buffer for paths of more than 975 characters (c81_folder_in_step), names in both metadata and d000001 are listed twice (c81_name_twice). Time steps of different content: C19.
  Theorems: `c81_variable`, `c81_folder_partial`, `c81_empty_folder`, `c81_listed_names`, `c81_missing`, `c81_type`, `c81_folder_in_step`, `c81_timed_partial`, `c81_num_timesteps_partial`, `c81_empty_path`, `c81_name_twice`.
* **C82 The arrays of the time steps are independent values** (partial) — model `CppRows`. Heap of blocks with rows; exact refinement of a specification in which arrays expire with the first one of their read, from there to independent values; invariant of owned blocks. *Missing or false:* Violated: only the array of the first time step owns the common block; all others are views into it. read(path)[k] with k > 0 in Python, or a C++ array that outlives the vector, is used after it has been freed (c82_first_dropped, c82_list_dropped). A read without time steps loses the block (c82_no_steps_leaks). c82_exact says exactly which histories are fine, c82_values_partial that those in which the first array is kept are.
  Theorems: `c82_exact`, `c82_values_partial`, `c82_first_dropped`, `c82_list_dropped`, `c82_no_leak`, `c82_no_steps_leaks`.
* **C83 A callback is told where the keyword or card is written** (partial) — model `KeyInfo`. Instrumented copy of the parser, proved equal to the parser after erasing; invariant of the local variables in terms of the lines read, extension order on the calls. *Missing or false:* c83_same_calls: the calls without the structure are those of C43, C53 and C68. Violated: a keyword without cards is reported when the next keyword is found, with the line of that keyword, or with the number of lines of the file (c83_not_own_line, c83_example); current_keyword_line is computed but not used.
  Theorems: `c83_same_calls`, `c83_card`, `c83_keyword_partial`, `c83_paths`, `c83_not_own_line`, `c83_example`.
* **C84 Without thread safety the users of a file do not disturb each other** (partial) — model `MultiFileSingle`. Simulation of positions per user by the common FILE object; induction over the calls. *Missing or false:* Violated: an offset with SEEK_END has the wrong sign (c84_from_end); after a failed seek the position is the negative target instead of the old position (c84_failed_seek). The library itself does not use SEEK_END.
  Theorems: `c84_cursors_partial`, `c84_seek_read`, `c84_from_end`, `c84_failed_seek`.
* **C85 Families with more files than can be open at the same time (builds without thread safety)** (partial) — model `D3Window`. Closed forms of the opening and closing loops by induction; invariant that the open files are an interval; induction over the steps. *Missing or false:* Holds for reading on (c85_walk) and for seeks further away than the number of open files (c85_far). Violated for all other seeks: they open one file more than they have closed, which fails at the limit (c85_near_fails, c85_first_unopened, c85_back_to_start), or loses a FILE object or goes outside of the array for the first file (c85_near_free); with a single open file a seek uses a null pointer (c85_single_ub).
  Theorems: `c85_open`, `c85_enough_partial`, `c85_next`, `c85_walk`, `c85_far`, `c85_near_fails`, `c85_near_free`, `c85_near_free_on`, `c85_open_none`, `c85_outside`, `c85_single_ub`, `c85_first_unopened`, `c85_back_to_start`.
* **C86 Parsing a key file releases everything it allocates** (partial) — model `KeyMem`. The parser once more with the blocks of memory; simulation of the parser of C36 with an ownership invariant (exactly the listed blocks are live) carried through every step and through the recursion of includes. *Missing or false:* Proved for all callbacks and for key_file_parse, up to the blocks `leak`, which are empty if no line ends with +. Violated: the buffer of a continued line is lost if a file ends in a continued line of a keyword that already has a card (c86_leak).
  Theorems: `c86_parse_partial`, `c86_free`, `c86_key_file_parse_partial`, `c86_no_leak`, `c86_example`, `c86_leak`.
* **C87 Element states release the memory they hold** (partial) — model `StateMem`. The allocations of the three readers, the C functions that release their results and the C++ objects, over a heap of blocks; invariant by induction over programs: the live blocks are those of the objects, the lost ones and the initial ones. *Missing or false:* Proved for programs without copies: no double release, and exactly the blocks counted by `lost` are lost. Violated: blocks are lost after errors of the file and for beams in C++ (`lost`), with three integration points and no history variables (c87_lost_each_read), copies release twice (c87_copy, c87_mean_copy, c87_empty_copy), and without integration points pointers that were never set are released (c87_c_shells_no_points, c87_c_beams_no_points).
  Theorems: `c87_programs_partial`, `c87_c_shells_partial`, `c87_c_beams`, `c87_c_beams_no_points`, `c87_c_beams_no_points_null`, `c87_c_shells_no_points`, `c87_lost_each_read`, `c87_lost_nothing`, `c87_copy`, `c87_empty_copy`, `c87_mean_copy`.
* **C88 Opening and closing a binout releases everything it allocates** (partial) — model `BinoutMem`. binout_open and binout_close once more with the blocks of memory; simulation of the model of C12 by a relation between results, with an ownership invariant (the allocated blocks are those of the tree, of the files, of the errors, one per released name of a folder, and the initial ones) by induction over paths, records and files. *Missing or false:* Proved: current_folder always leads into allocated memory, exactly the blocks of the binout are allocated, and closing releases all of them up to one block if no variable has got the name of a folder. Violated: the array of files is never released (c88_lost_each_time), and a variable with the name of a folder makes binout_close release a name twice (c88_name_of_folder, c88_clash).
  Theorems: `c88_open_agrees`, `c88_close_partial`, `c88_name_of_folder`, `c88_names`, `c88_lost_each_time`, `c88_clash`.
* **C89 Opening, reading and closing a d3plot releases everything and keeps no file handle in use** (proved) — model `D3Mem`. d3plot_open, the reading calls and d3plot_close once more with the blocks of memory and the handles of the files; simulation of the models of C25-C36 call by call, with an ownership invariant (the allocated blocks are those of the buffer, of the error, of data_pointers, of the caller, and the initial ones; a handle is locked exactly if the one pointer of the call holds it) by induction over the calls. *Note:* Proved for everything that Verif.D3Mem models (states of elements and the queries of node ids of parts are not part of a session). The buffer of 1024 characters into which the names of the files are printed is not modelled. A second d3plot_close is undefined (c89_close_twice); after a failed d3plot_open a handle can still be in use until the file is closed (c89_handle_in_use).
  Theorems: `c89_agrees`, `c89_memory`, `c89_failed_open`, `c89_close`, `c89_close_twice`, `c89_sample`, `c89_handle_in_use`.
* **C90 Ids of all elements of a d3plot** (partial) — model `D3AllIds`. the four calls and merges one after the other; exact condition of one merge (c37_exact), and that a merge keeps the order of what was collected before, so that the condition of the whole is the conjunction of the conditions of the merges. *Missing or false:* No id is lost (c90_nothing_lost); c90_sorted_partial says exactly when the result is in ascending order. Violated otherwise: overlapping memcpy (c90_overlap), not sorted (c90_not_sorted). In C++ only a failure of the thick shells is an exception (c90_cpp).
  Theorems: `c90_nothing_lost`, `c90_sorted_partial`, `c90_cpp`, `c90_overlap`, `c90_not_sorted`, `c90_fits`.
* **C91 Memory of the queries for the nodes of a part and for all element ids** (partial) — model `D3PartMem`. the part queries and the merge of all ids once more with blocks of memory; simulation of the models of C59 and C90, the calls return also the blocks to which no pointer remains, so that the ownership invariant of C89 accounts for every block; induction over the calls of a session, upper bound for every file and exact number for files whose tables can be read. *Missing or false:* Everything but the loss is proved (c91_agrees, c91_memory). Nothing is lost if the caller passes the connectivity (c91_nothing_lost_partial). Violated otherwise: loaded_cons is never set, so every call loses the connectivity it loads: exactly one block per kind of elements of the part (c91_lost_exactly, c91_lost_each_call).
  Theorems: `c91_agrees`, `c91_memory`, `c91_nothing_lost_partial`, `c91_lost_exactly`, `c91_cpp_all_ids`, `c91_lost_each_call`, `c91_sample`.
* **C92 Memory and file handles of the calls on an open binout** (proved) — model `BinoutCalls`. simulation: every call with memory is related to the call without memory (same answer, same error string, same undefined cases) by an invariant on the heap (blocks of the binout, results, the rest) and on the handles in use; induction over the time steps, over the path components and over the program *Note:* The block lost by closing (c92_memory: lost) is the array files of C88, not one of these calls. Found on the way: binout_read_timed_<type> does not compare the type of the variable with the type it reads (c92_timed_type_unchecked, c92_sample), unlike binout_read_<type>.
  Theorems: `c92_memory`, `c92_close`, `c92_timed_error_or_data`, `c92_timed_type_unchecked`, `c92_sample`.
* **C93 Objects of a key file own their memory** (partial) — model `KeyOwn`. refinement: a machine of values (copies are values, views are indices) is simulated by the machine with memory; the invariant says which object owns which blocks and that no two objects own the same copy or the same parse; induction over the program; the leaks are counted *Missing or false:* Violated: ParseConfig never frees the strings of the extra include paths (c93_config_leak); assigning to a Card that owns a copy loses it (c93_assign_leak); self assignment and moved-from cards are undefined (c93_moved_card); cards have no position before begin (c93_not_begun); in Python the Keywords is not kept alive by its slices and cards (c93_python_dangling). c93_objects_partial counts the leaked blocks exactly.
  Theorems: `c93_objects_partial`, `c93_no_leak`, `c93_config_leak`, `c93_moved_card`, `c93_not_begun`, `c93_example`, `c93_assign_leak`, `c93_python_dangling`.
* **C94 Paths of the file system on both platforms** (partial) — model `PathReal`. the functions with the separators of a platform are those for `/` after mapping every separator to `/` (induction on the string for each loop), then C05, C06 and the exact behaviour on relative paths (`c06_relative`) *Missing or false:* Violated for paths that begin with a component: for two components of which the first has a single character 0 is returned (the empty path), and a single component of at least two characters followed by a separator has the empty path as parent instead of none (c94_exceptions). path_join_real with an empty first argument reads before the string (as path_join, C05).
  Theorems: `c94_linux`, `c94_join`, `c94_move_up_absolute`, `c94_move_up_relative_partial`, `c94_exceptions`.
* **C95 Parsing key files with a callback in C++** (partial) — model `KeyCallback`. the callback in C++ is a callback in the sense of C86 whose memory are the kept copies (induction over what one call does, then over the events); the kept copies satisfy the invariant of C93, so that all later commands are covered; induction over the program *Missing or false:* Violated: an exception of the callback leaves key_file_parse_with_callback without releasing what it has allocated (c95_throw_leak); besides that the leaks of C93 (extra include paths, assignments) and C86 (lines that end with '+'). c95_wrong: using the nullopt card, or reading a field of a card before begin, is undefined.
  Theorems: `c95_callback_partial`, `c95_no_leak`, `c95_example`, `c95_throw_leak`, `c95_wrong`.
* **C96 Keywords of a key file in Python** (partial) — model `PyKey`. the converted argument of an index by cases; the loop protocol of Python by induction on the number of remaining elements; the slices by C72 and C46 *Missing or false:* Violated: operator[] throws std::runtime_error (and not std::out_of_range, Python's IndexError), and the classes have no __iter__: every for loop over a KeywordSlice or a Keyword ends with RuntimeError after the last element (c96_for_partial), a loop over Keywords with TypeError at once (c96_keywords_loop). Besides the limits of C72.
  Theorems: `c96_index`, `c96_for_partial`, `c96_keywords_loop`, `c96_items_partial`, `c96_example`.
* **C97 The error string of binout_read_timed tells the cause** (proved) — model `BinoutCalls`. the text of the search as a function of what the directory has under the path, by induction over the components together with the search itself; the loop over the time steps by induction; lifted to files with the representation of C12 *Note:* Assumes that no variable has the name of a time step folder (as C65) and that the file can be opened again; a message that does not fit into 1024 bytes overruns the buffer (C66).
  Theorems: `c97_steps`, `c97_cause`, `c97_example`, `c97_first_bad_step`, `c97_first_bad_step_sample`.
* **C98 The profiler reports every section once with its total time** (proved) — model `Profiling`. invariant: the arrays in memory are a tree in which the names that lead to an array determine it, and the open sections are a chain of pointers into it that no move of an array touches; the times by mutual induction over the nested executions; the report as a walk over the tree, read back from the levels of its lines *Note:* Times are exact (the code adds doubles); assumes that level and name of a section have at most 1023 characters together; one thread. Missing ends in the code: binout_get_children for a path that does not exist, binout_directory_get_file of an empty binout, the parsing of a floating point number with an invalid character.
  Theorems: `c98_sections`, `c98_report`, `c98_long_name`, `c98_open`, `c98_example`.
* **C99 The lines of the profiling report are sorted by time** (partial) — model `Profiling`. the partition step as a rearrangement of lists, the quick sort by induction on the bound of the recursion (a weight of the tree is shown to suffice); the deviation by a witness *Missing or false:* Partial: quick_sort_execution_times only sorts the sections within the first element of each array (it always follows `stack->sub_executions`), so the lines within all other sections are in the order of their names (c99_unsorted).
  Theorems: `c99_order_partial`, `c99_unsorted`.
* **C100 Accessors of element states show the values of the right integration point** (partial) — model `CppState`. composition with the exact decoding of C38/C39 and the mean of C78; the texts of the exceptions are compared as bytes; deviations by witnesses *Missing or false:* Partial: the parameters of D3plotThickShell::get_add_ip_history_variables and D3plotBeam::get_history_variables are uint8_t, so index 256 is taken for index 0 instead of being rejected (c100_thick_index_wraps, c100_beam_index_wraps), and an element with less than three points claims 253 or more additional points and reads through NULL (c100_too_few_points). Not modelled: in Python read_beams_state returns Array<d3plot_beam>, for which no class is registered.
  Theorems: `c100_shells`, `c100_thick_shells_partial`, `c100_beams_partial`, `c100_mean`, `c100_thick_index_wraps`, `c100_beam_index_wraps`, `c100_too_few_points`, `c100_shells_sample`.
* **C101 Names of files found by a pattern on Windows** (partial) — model `WinGlob`. the loop for the folder by induction on the pattern, each block by exact values of its cells; the deviations for all cases in which they occur *Missing or false:* Partial: if a name is longer than the folder part of the pattern, memcpy is called with overlapping ranges (c101_longer_than_folder; this is already so for binout0000 in a folder whose name has less than nine characters), and with an empty pattern the search for the folder reads far outside of the text (c101_empty_pattern).
  Theorems: `c101_names_partial`, `c101_longer_than_folder`, `c101_empty_pattern`, `c101_sample`.
* **C102 An opened file stays the same file when the working directory changes** (partial) — model `PathOpen`. a relation between paths and files for each working directory; the stored path is shown to be absolute and to have the components of both, on top of C94; the deviations for all cases in which they occur *Missing or false:* Partial: on Windows a path with a lower case drive is taken for a relative one and the working directory is put in front of it (c102_drives); on Linux with a working directory of 1024 characters or more the stored path is relative (c102_long_directory); on Windows without a working directory the replacement is not terminated (c102_no_directory). Paths are compared by their components, . and .. and links are not resolved.
  Theorems: `c102_stable_partial`, `c102_drives`, `c102_long_directory`, `c102_no_directory`, `c102_sample`.
* **C103 The text of a value shows every member with its label** (partial) — model `CppPrint`. the text is read back: what stands between the marks is the list of labels and values, by exact computation for each separator; arrays by induction on the rest of the loop; the deviation for all elements in which it occurs *Missing or false:* Partial: the text of a shell or thick shell with less than three integration points, or whose strains are not in the file, prints members that have never been written (c103_unwritten); complete for all other elements. The format of floating point numbers is a parameter.
  Theorems: `c103_solid`, `c103_surface`, `c103_thick_shell_partial`, `c103_group`, `c103_shell_partial`, `c103_beam`, `c103_num`, `c103_con`, `c103_beam_con`, `c103_array`, `c103_array_words`, `c103_bytes`, `c103_unwritten`, `c103_sample`.
* **C104 Locks exclude other threads on both platforms** (proved) — model `Sync`. both implementations as transition systems over the documented functions of the operating system; an invariant relates each object to the holder that the history determines; equality of the behaviours by induction on the history *Note:* The functions of the operating system are modelled as documented. Deviations: on Windows a lock whose event cannot be created returns EINVAL at once (c104_not_created), and no caller looks at the value; an unlock by a thread that does not hold the lock breaks the exclusion on Windows and is undefined with POSIX threads (c104_foreign_unlock).
  Theorems: `c104_step`, `c104_exclusive`, `c104_waits`, `c104_wakes`, `c104_same`, `c104_not_created`, `c104_foreign_unlock`, `c104_sample`.
* **C105 A d3plot database that is written as the format prescribes is read back** (proved) — model `D3Writer`. a writer as an independent specification; its files are shown to meet the hypotheses of C32 (a family), then each section of the first file and of each state is found as a slice of the concatenation of the words; the values of the elements by the exact decoding of C33-C38 on the words of one element; parts and their nodes by C36 and C59 on the tables that were read *Note:* The writer (D3Writer) is a specification that does not use the reader. Not written by it: adaptivity, ten node solids, the optional second block of control words, blocks between geometry and states, arbitrary numbering without NSORT < 0. The hypotheses exclude what the library cannot read: a last value of time equal to the end marker, more than three integration points with history variables in thick shells (c38_thick_heap_overflow), ISTRN that cannot be inferred (c38_strain_flag_unset), first words that look like a database with words of the other size.
  Theorems: `c105_round_trip`, `c105_parts`, `c105_parts_sample`, `c105_values`, `c105_sample`.
* **C106 A key file that is written as the format prescribes is read back** (proved) — model `KeyWriter`. a writer as an independent specification; its text splits into the lines that were written (C41), what counts of every line is the text in front of the comment, the blocks are found by induction on the keywords (C43, C44), lines behind *END do not matter; lookups by C45; the cursor is at the sum of the widths, where the field is what was written (C48, C49, C57) *Note:* The writer (KeyWriter) is a specification that does not use the parser. Excluded, because the library does not read it: keyword lines of 82 characters or more (c43_long_header_ub), a keyword that reads behind the list (c44_overrun_ub), cards of more than 255 characters (c47_long), file sizes that are a multiple of the size of the chunks and large files with a newline in the memory that has not been initialised (c41_extra_line, c41_stale_newline). Not written: files without keywords (c43_empty_file), INCLUDE keywords (C68). Floating point values are computed exactly; the rounding of the arithmetic is that of C57.
  Theorems: `c106_round_trip`, `c106_fields`, `c106_sample`.
* **C107 A binout that is written step by step is read back** (proved) — model `BinoutWriter`. a writer as an independent specification on top of the encoding of records (C12); by induction on the folders its records give the list of variables and folders of the specification of C12 to C20, names of six digits are ordered like their numbers, so that the general theorems apply to every such set of files *Note:* The writer (BinoutWriter) is a specification that does not use the reader; it uses the encoding of records of C12. Time steps that do not have the same variables or sizes are those of the witnesses of C19 (c19_varying_size_overflows, c19_wrong_variable). Names longer than the fields of a record, paths of 1 KiB, characters that are not 7-bit and more than 256 files are excluded (C15, c08_non_ascii_not_found, C17).
  Theorems: `c107_round_trip`, `c107_sample`, `c107_children`.
* **C108 The functions for double and for float return the same numbers** (proved) — model `D3Float`. the loops by induction with the cells that are filled so far as invariant; equality of every function with the one that reads the words, up to the conversion, for every open file; composition with the round trip of C105 gives the values that were written; the conversion as arithmetic on sign, exponent and fraction, shown exact for all patterns *Note:* Hypothesis of the theorems for any open file: the size of the result in bytes fits into 64 bits; c108_written shows that it holds for every database that the format can describe (C105). The rounding of a double to a float is a parameter; the reverse direction (widen) is the bit pattern of IEEE 754 and exact (c108_exact). IU = 2 is excluded (c32_displacements_rejected).
  Theorems: `c108_node_data`, `c108_all_node_data`, `c108_times`, `c108_written`, `c108_words`, `c108_words_sample`, `c108_exact`, `c108_distinct`, `c108_numbers`, `c108_sample`.

## What cannot be expressed in this model

* Timing (profiling.c) and the order in which the operating system lists files (binout_glob.c): parameters of the model.
* Exact rounding of `float` and `double`: see C57 and C39; the conversion of a `double` to a `float` is a parameter (C108).
* Memory exhaustion: `malloc` is assumed to succeed; the code does not check it in most places.

## Findings

Defects of the code that the model exhibits, with the theorem that proves each.

d3plot:
* a family of one file ("Too few files") closes a pointer that is closed already, and the ids and titles of a database without materials close an uninitialised
  pointer; control data that is cut, or extra control words in 1..17, are undefined behaviour (C29, C66; `c29_short_family_is_ub`);
* every failed access to a file is undefined behaviour for the following close (C55 witness theorems);
* word counts are multiplied without overflow checks (`c31_overflow_accepted`), ten node solids leave a gap (`c31_ten_node_solids_gap`);
* a negative NEL8 with an ids section is always rejected for four byte words, because the number is not sign extended; NGLBV smaller than 6 + 7 * materials silently gives
  no states; the last state is only counted if one more word follows; with NSORT ≥ 0 and NMMAT ≠ 0 three words per material are skipped that are not there;
* `d3plot_index_for_id` with no ids is undefined (`c01_empty_is_ub`); unsorted ids are not found (`c36_unsorted_part_not_found`); the number of part ids is taken from NMMAT of the control data
  (`c67_part_count`); NEIPB = 2^64-5 divides by zero;
* thick shell and other state decoding overflows for accepted control data (`c38_*`); the mean of surfaces with less than three points is undefined (C39);
* the union of interleaving id lists is not sorted (`c37_interleaved_not_sorted`); part nodes: missing ids index out of bounds (`c59_missing_id_ub`), loaded tables are never freed,
  `d3plot_part_get_all_element_ids` ignores the result of realloc (`c60_moved_is_undefined`).

binout:
* signed comparison of names breaks the search for names with bytes ≥ 0x80 (C04, `c08_non_ascii_not_found`); a variable written over a folder is a use after free (C11);
* record lengths shorter than the fixed part loop forever or give a variable of 2^64-2 bytes (C13); CD of 1024 bytes or more and DATA before CD abort (`c16_data_before_cd_aborts`);
* CD to the root, above it, or with `//` resolve wrongly (C15); a damaged file of a set attaches the variables of the others to wrong files (`c17_failed_file_breaks_others`);
* timed reads overflow for growing variables, read the wrong variable or skip components (C19); error if the index in the first time step exceeds a later step's number of children (C65);
* a variable named metadata makes `binout_simple_path_to_real` follow an unset pointer (`c61_variable_named_metadata`); error messages are formatted into 1024 bytes (C69);
  `binout_close` never frees the array of files.

key files:
* the third occurrence of the last sorted keyword overruns the list (`c44_overrun_ub`), `key_file_get` reads behind the list (`c45_get_ub`), the slice misses the first block (`c46_slice_misses_first`);
* a file without keywords reports an empty keyword; a pending continued file name leaks into the next keyword's card; absolute include names are never found and one character names read
  in front of the buffer; self inclusion recurses without bound (C53); messages of 1024 bytes overflow; a keyword line of 82 or more characters with leading blanks copies a negative size (`c43_long_header_ub`);
* `extra_string_compare` and `extra_string_starts_with` are wrong for texts of more than 82 bytes (C62);
* cards: reading behind the terminator for incomplete last columns (`c47_short`), endless loops for cards of more than 255 characters (`c47_long`, `c51_endless`), a leading plus sign
  is classified as a number that the parser rejects (`c50_plus`);
* a file whose size is a multiple of the chunk size reports an extra line (`c41_extra_line`), uninitialised memory may cut a line (`c41_stale_newline`);
* INCLUDE_TRANSFORM: "1." and ".5" are ignored, "+5" is 0, fcttem leaks (C63).

C++: copies of DefineTransformation objects without title free uninitialised pointers, assignments keep old titles and lose memory (C77); the message of an exception is freed when its file is destroyed or used again (`c76_unwinding`, `c76_next_call`); with the connectivity of thick shells the nodes of a part are wrong (`c75_wrong_nodes`); copies of a part share memory that both free, and every copy leaks (`c74_double_free`, `c74_copy_leaks`); titles are cut at the first blank and read behind the memory without one (`c73_cpp_exact`); Card::parse returns 0 for text (`c70_text_is_zero`), parse_whole reads behind a card cut inside of a field (`c71_cut_ub`), Keywords[name] may miss the first keyword and overruns its message (C72); assignment leaks the memory of the target, copy self-assignment loses the elements (`c58_assign_leaks`), String == SizedString is wrong for long texts (`c54_mixed_eq_exact`).

Builds without thread safety: `multi_file_seek` with SEEK_END has the wrong sign (`c84_from_end`), a failed seek changes the position (`c84_failed_seek`). If not all files of a family can be open, seeks to a near file that is not open reopen one file too many: an error at the limit (`c85_near_fails`, `c85_first_unopened`), otherwise a lost FILE object or an access outside of the array (`c85_near_free`); with a single open file a null pointer (`c85_single_ub`).

Memory of the key file parser: the buffer of a continued line is lost if a file ends in a continued line of a keyword that already has a card (`c86_leak`).

Memory of element states: a read of shells or thick shells with three integration points and no history variables loses two blocks if `malloc(0)` is not null (`c87_lost_each_read`); a failed read of shells in single precision loses the history variables and additional integration points, a failed read of beams and every array of beams in C++ loses the integration points and history variables (`lost`, `c87_programs_partial`); copies of C++ arrays of shells and of means release the same blocks twice (`c87_copy`, `c87_mean_copy`, `c87_empty_copy`); without integration points pointers that were never set are released (`c87_c_shells_no_points`, `c87_c_beams_no_points`).

Memory of binouts: `binout_close` does not release the array `files`, so that opening and closing a binout `k` times loses `k` blocks (`c88_lost_each_time`); a variable with the name of a folder of the same directory releases the name of the folder and loses its own name, and `binout_close` releases the name of the folder again (`c88_name_of_folder`, `c88_clash`).

Memory of d3plots: if the checks behind the header fail, `d3plot_open` returns without giving the handle back, so that it stays in use until the file is closed (`c89_handle_in_use`); a second `d3plot_close` releases `data_pointers` again (`c89_close_twice`); not modelled: the names of files are printed into a buffer of 1024 characters (`d3_buffer.c:139`), the mutexes of the handles are not destroyed by `multi_file_close`.

All element ids: if the beams have smaller ids than the solids and there are fewer of them, `d3plot_read_all_element_ids` copies overlapping memory with `memcpy` (`c90_overlap`), interleaving ids are not sorted (`c90_not_sorted`); a failure to read is silent in C, and in C++ unless it happens for the thick shells (`c90_cpp`).

Memory of part queries: `loaded_cons` is never set in pgni.h, so that each call of a function for the nodes of a part loses the connectivity it loads, one block per kind of elements (`c91_lost_exactly`, `c91_lost_each_call`); `D3plot::read_all_element_ids` loses the collected ids if it throws (at most one block, `c91_memory`).

Binout reads over time: `binout_read_timed_<type>` never compares the type of the variable with the type it reads: a `FLOAT32` variable can be read as `INT32` (`c92_timed_type_unchecked`, `c92_sample`), while `binout_read_<type>` reports an error.

Key file objects in C++ and Python: `ParseConfig` frees the array of the extra include paths but not the strings
(`c93_config_leak`, every `KeyFile::parse` with extra paths leaks them once more because the configuration is passed by
value); assigning to a `Card` that owns a copy loses the copy (`c93_assign_leak`), assigning a `Card` to itself is
undefined (`c93_moved_card`); a card has no position before `begin`, `done`, `next` or `parse` before it read
uninitialised memory (`c93_not_begun`); in Python no object keeps the `Keywords` alive, so that
`key_file_parse(f)["NODE"][0]` reads freed memory (`c93_python_dangling`).

Paths: `path_move_up` and `path_move_up_real` on a path that begins with a component return 0 (the empty path) for
`a/b`, because the position 0 of the last character of the first component is taken for the root, and for `ab/`, which
has no parent (`c06_relative`, `c94_exceptions`). The key file parser is not affected: it only takes the parent of absolute
paths.

Key files in C++: an exception of the callback of `KeyFile::parse_with_callback` passes `key_file_parse_with_callback`,
which releases nothing: the include paths, the root folder, the line buffer and the file stay allocated
(`c95_throw_leak`).

Python: `KeywordSlice` and `Keyword` have `__len__` and `__getitem__` but no `__iter__`, and `operator[]` throws
`std::runtime_error`, which is `RuntimeError` in Python and not the `IndexError` that ends a loop: every `for` loop over
them visits all elements and then raises (`c96_for_partial`); a loop over `Keywords` raises `TypeError` at once
(`c96_keywords_loop`). `range(len(…))` works (`c96_items_partial`).

Profiling (only in builds with `PROFILING`): `quick_sort_execution_times` sorts the nested sections only within the first section of each array (`c99_unsorted`), and it does so once per call, so that the work grows with every level of nesting. A section that is never ended suppresses the report for the rest of the program (`c98_open`); this happens after `binout_get_children` with a path that does not exist, after `binout_directory_get_file` on an empty binout and after a floating point number with an invalid character in a card.

C++ element states: indices above 255 of integration points of thick shells and beams are taken modulo 256 instead of being rejected (`c100_thick_index_wraps`, `c100_beam_index_wraps`); for elements with less than three points every index below 253 reads through a pointer that leads nowhere (`c100_too_few_points`).

Binout on Windows: the name of a file that has been found is moved behind the folder with `memcpy` inside the same block; if the name is longer than the folder the ranges overlap (`c101_longer_than_folder`, for all such patterns), which is already so for `d/binout*` and `binout0000`. With an empty pattern the search for the folder starts 2 characters in front of the text (`c101_empty_pattern`).

Paths: on Windows `path_is_abs` knows upper case drives only, so the working directory is put in front of `c:/data/d3plot` (`c102_drives`); on Linux with a working directory of 1024 characters or more the stored path begins with `./` and later accesses depend on the working directory (`c102_long_directory`); on Windows without a working directory the replacement `"."` ends with a newline instead of a NUL (`c102_no_directory`).

Texts of shells: `operator<<` for `d3plot_shell` and `d3plot_thick_shell` (cpp/d3plot.cpp:506-535) prints `inner`, `outer`, `inner_strain` and `outer_strain` without looking whether they were read (`c103_unwritten`). The text of a tensor has a colon instead of a semicolon in front of `XZ`.

Locks: nobody looks at the values of `sync_lock`; on Windows a lock whose event could not be created does not lock (`c104_not_created`, sync.c:34, 43-53, multi_file.c:82).

Key files: the position of a keyword without cards is the line of the next keyword (`c83_not_own_line`).

C++ and Python: of the arrays of all time steps only the first one owns the memory; `binout.read(path)[k]` with `k > 0` and arrays that outlive the vector in C++ are used after free (`c82_first_dropped`, `c82_list_dropped`); a read without time steps leaks (`c82_no_steps_leaks`).

Python: `text == str` ignores the last character and throws for two empty texts (`c79_last_character`, `c79_empty_text`), texts of which one begins with the other are not ordered (`c79_prefix_not_ordered`); `Card.parse_whole()` reads behind every card whose length is not a multiple of 10 (`c80_default_cut`), `+5` is 0, "3 point bending" is 3 and `1.` a text (`c80_plus`, `c80_words`, `c80_dot`); `Binout.read` of an empty folder accesses an empty vector (`c81_empty_folder`), of the empty path is an assertion failure (`c81_empty_path`).

## Seeded errors

`seeded/LOG.jsonl` lists the edited models: one line per edit with the definition, the edit, the claims it breaks, the theorems that stopped building and the theorems that were added or
tightened because an edit survived. Surviving edits are either equivalent (the reason is given) or led to a stronger theorem.

## Axioms

Output of `collectAxioms` for all theorems of the manifest (no other axiom occurs anywhere; `vcheck` replays every module in the kernel):

* [Classical.choice, Quot.sound, propext]: `c01_index_for_id_exact`, `c02_directory_insert_point`, `c02_keyword_insert_point`, `c04_comparison_partial`, `c06_path_move_up_partial`, `c06_relative`, `c06_relative_wrong`, `c06_relative_wrong'`, `c07_children_sorted`, `c08_last_writer_wins`, `c08_non_ascii_not_found`, `c09_children_complete`, `c11_clash_partial`, `c11_file_over_folder_is_ub`, `c12_round_trip`, `c13_huge_variable`, `c13_seek`, `c13_terminates_inside_partial`, `c13_zero_length_loops`, `c14_skip`, `c14_unknown_records_ignored`, `c15_cd_resolution_partial`, `c15_cd_root_ignored`, `c15_path_limit`, `c15_root_witnesses`, `c16_cut_is_reported`, `c16_data_before_cd_aborts`, `c16_header_damage`, `c16_truncated`, `c17_failed_file_breaks_others`, `c17_file_association_partial`, `c18_read`, `c19_missing_component_skipped`, `c19_name_order_is_time_order`, `c19_read_timed_partial`, `c19_varying_size_overflows`, `c19_wrong_variable`, `c20_exact`, `c20_num_timesteps_partial`, `c20_span`, `c20_unknown`, `c20_witnesses`, `c21_error_string`, `c21_no_files`, `c24_handles_are_reused`, `c25_idle_files_are_closed`, `c26_read_is_slice`, `c27_errors_partial`, `c27_read_from_pointer`, `c28_read_read`, `c28_skip_read`, `c29_short_family_is_ub`, `c29_word_size_partial`, `c31_geometry_partial`, `c32_displacements_rejected`, `c32_states`, `c35_connectivity`, `c36_part`, `c36_part_by_id`, `c38_beam_memory`, `c38_beams`, `c38_memory_safe_partial`, `c38_shells_exact`, `c38_solids`, `c38_solids_exact`, `c38_thick_exact`, `c38_thick_overflow`, `c39_shell_points`, `c39_thick_points`, `c40_deletion_round_trip`, `c40_derived`, `c40_output_flags`, `c41_chunks`, `c41_lines_multiple`, `c41_lines_partial`, `c41_safe`, `c41_small`, `c42_comment`, `c43_callbacks_partial`, `c43_calls_well_formed`, `c43_empty_file`, `c43_long_header_ub`, `c44_key_file_parse`, `c44_keyword_list_at_most_twice`, `c44_keyword_list_partial`, `c44_keyword_list_perm`, `c44_overrun_ub`, `c44_text_to_list_partial`, `c45_get_ub`, `c45_key_file_get_existing`, `c45_key_file_get_partial`, `c46_key_file_get_slice_partial`, `c46_slice_first_name`, `c46_slice_misses_first`, `c47_short`, `c48_exact`, `c48_field_partial`, `c48_int`, `c48_lenient`, `c48_overflow`, `c49_round_trip`, `c49_string`, `c49_whole`, `c50_exact_float`, `c50_exact_int`, `c50_float`, `c50_float_no_error`, `c50_int_partial`, `c50_plus`, `c50_safe`, `c50_wide`, `c51_wrap`, `c53_absolute_not_found`, `c53_comment_keeps_blank`, `c53_include_partial`, `c53_include_path`, `c53_include_path_relative`, `c53_included_like_main`, `c53_search_list`, `c53_self_include`, `c53_short_name_ub`, `c54_array_eq`, `c54_mixed_eq_exact`, `c54_mixed_eq_partial`, `c54_mixed_eq_wrong`, `c54_std_cut`, `c54_string_eq`, `c54_string_eq_std`, `c55_history_partial`, `c56_section_terminates`, `c57_dot_exponent`, `c57_error_iff`, `c57_int`, `c57_position`, `c57_reject`, `c57_value`, `c58_arrays_are_values`, `c58_assign_leaks`, `c58_no_leak_partial`, `c58_self_assign`, `c59_part_node_ids`, `c59_part_node_indices`, `c61_existing_path`, `c61_real_path_is_variable`, `c61_simple_path`, `c61_timed_flag_without_result`, `c61_timed_variable`, `c61_variable_named_metadata`, `c62_compare`, `c62_compare_164`, `c62_compare_very_long`, `c62_copy`, `c62_reader`, `c62_take_name`, `c62_take_name_ub`, `c63_ignored`, `c63_include_transform`, `c63_short`, `c64_define_transformation`, `c64_define_transformation_title`, `c64_no_cards`, `c65_all_or_error`, `c65_no_such_variable`, `c65_shrunk`, `c66_accepted`, `c66_end_marker`, `c66_file_type`, `c66_marker`, `c66_rejected`, `c66_supported`, `c67_ids`, `c67_title`, `c68_complete`, `c68_exact`, `c68_good_world`, `c68_meaning`, `c68_root`, `c68_unique`, `c69_error_or_data`, `c69_long_path_overruns`, `c69_sessions`, `c69_type_or_error`, `c70_int_partial`, `c70_text_is_zero`, `c71_cut_ub`, `c71_exception`, `c71_parse_whole_partial`, `c71_parse_whole_widths_partial`, `c72_first_name`, `c72_long_name_ub`, `c72_loop_partial`, `c73_cpp_exact`, `c73_cpp_title`, `c73_exact`, `c73_no_section`, `c73_part_titles_partial`, `c73_sample_blank`, `c73_title`, `c74_copy_leaks`, `c74_double_free`, `c74_move_assign_leaks`, `c74_values_partial`, `c75_exact`, `c75_node_ids_partial`, `c75_node_indices_partial`, `c77_copy_assignment_leaks`, `c77_define_transformation_partial`, `c77_exact`, `c77_fcttem_leaks`, `c77_include_transform_partial`, `c77_move_assignment_leaks`, `c77_no_leak_partial`, `c77_self_assignment`, `c77_stale_title`, `c78_exact_arithmetic`, `c78_shells_of_file`, `c78_thick_shells_of_file`, `c79_mirror`, `c79_order_exact`, `c79_order_partial`, `c79_order_same_length`, `c79_prefix_not_ordered`, `c80_cut`, `c80_default_cut`, `c80_dot`, `c80_no_trim`, `c80_parse_partial`, `c80_plus`, `c80_whole_partial`, `c80_whole_widths_partial`, `c80_words`, `c81_empty_folder`, `c81_empty_path`, `c81_folder_in_step`, `c81_folder_partial`, `c81_listed_names`, `c81_missing`, `c81_name_twice`, `c81_num_timesteps_partial`, `c81_timed_partial`, `c81_type`, `c81_variable`, `c82_exact`, `c82_first_dropped`, `c82_list_dropped`, `c82_no_leak`, `c82_values_partial`, `c83_card`, `c83_example`, `c83_keyword_partial`, `c83_not_own_line`, `c83_paths`, `c83_same_calls`, `c84_cursors_partial`, `c84_failed_seek`, `c84_from_end`, `c84_seek_read`, `c85_back_to_start`, `c85_enough_partial`, `c85_far`, `c85_first_unopened`, `c85_near_fails`, `c85_near_free`, `c85_near_free_on`, `c85_next`, `c85_open`, `c85_open_none`, `c85_walk`, `c86_example`, `c86_free`, `c86_key_file_parse_partial`, `c86_leak`, `c86_no_leak`, `c86_parse_partial`, `c87_c_beams`, `c87_c_beams_no_points`, `c87_c_beams_no_points_null`, `c87_c_shells_no_points`, `c87_c_shells_partial`, `c87_copy`, `c87_mean_copy`, `c87_programs_partial`, `c88_clash`, `c88_close_partial`, `c88_lost_each_time`, `c88_name_of_folder`, `c88_names`, `c88_open_agrees`, `c89_agrees`, `c89_close`, `c89_close_twice`, `c89_failed_open`, `c89_memory`, `c91_agrees`, `c91_cpp_all_ids`, `c91_lost_each_call`, `c91_lost_exactly`, `c91_memory`, `c91_nothing_lost_partial`, `c92_close`, `c92_memory`, `c92_sample`, `c92_timed_error_or_data`, `c92_timed_type_unchecked`, `c93_assign_leak`, `c93_config_leak`, `c93_example`, `c93_moved_card`, `c93_no_leak`, `c93_objects_partial`, `c93_python_dangling`, `c94_exceptions`, `c94_join`, `c94_linux`, `c94_move_up_absolute`, `c94_move_up_relative_partial`, `c95_callback_partial`, `c95_example`, `c95_no_leak`, `c95_throw_leak`, `c96_example`, `c96_items_partial`, `c96_keywords_loop`, `c97_cause`, `c97_example`, `c97_first_bad_step`, `c97_first_bad_step_sample`, `c97_steps`, `c98_example`, `c98_long_name`, `c98_open`, `c98_report`, `c98_sections`, `c99_order_partial`, `c99_unsorted`.
* [Quot.sound, propext]: `c01_empty_is_ub`, `c03_components_of_pieces`, `c03_path_components`, `c05_path_join`, `c05_path_join_text`, `c10_only_components_matter`, `c22_exclusive`, `c23_reads`, `c24_failing_open_grows`, `c25_held_file_is_open`, `c25_no_undefined_behaviour`, `c28_skip_to_end_is_error`, `c30_family`, `c30_no_root`, `c36_unsorted_part_not_found`, `c37_exact`, `c37_insert_partial`, `c37_nothing_lost`, `c37_touching`, `c39_mean_points`, `c40_digits`, `c40_strain_flag`, `c40_strain_flag_thick`, `c40_strain_flag_unset`, `c47_cursor_partial`, `c47_long`, `c47_next_width`, `c47_short_all`, `c49_no_trim`, `c51_empty_partial`, `c51_endless`, `c52_string_builder`, `c53_absolute_inside`, `c53_name_cards`, `c53_name_exact`, `c53_name_memory`, `c53_search`, `c54_array_at`, `c54_array_iter`, `c54_array_set`, `c54_sized_eq`, `c54_sized_eq_std`, `c54_sized_str`, `c54_string_at`, `c54_string_text`, `c56_no_deadlock`, `c59_missing_id_ub`, `c60_moved_is_undefined`, `c60_nothing_lost`, `c60_one_kind_partial`, `c62_callback_name`, `c62_card_text`, `c62_compare_long`, `c62_compare_long_witness`, `c62_copy_to_string`, `c62_copy_wraps`, `c62_cut`, `c62_get`, `c62_starts_with`, `c62_starts_with_short`, `c62_starts_with_wrong`, `c65_missing_bytes`, `c72_cards`, `c72_slice`, `c72_slice_outside`, `c75_solids_ignored`, `c75_wrong_nodes`, `c76_exact`, `c76_message_partial`, `c76_next_call`, `c76_open_message`, `c76_unwinding`, `c77_copy_of_untitled`, `c77_copy_without_file_name`, `c78_mean`, `c78_too_few_points`, `c79_empty_text`, `c79_items`, `c79_last_character`, `c79_list_eq`, `c79_new`, `c79_new_of_list`, `c79_setitem`, `c79_setitem_cut`, `c79_text_eq_exact`, `c79_text_eq_partial`, `c80_bad_width`, `c85_outside`, `c85_single_ub`, `c87_empty_copy`, `c89_handle_in_use`, `c89_sample`, `c90_cpp`, `c90_nothing_lost`, `c90_sorted_partial`, `c91_sample`, `c96_for_partial`, `c96_index`.
* [propext]: `c04_order_disagrees_non_ascii`, `c05_empty_lhs_is_ub`, `c27_closed_pointer`, `c27_huge_position_accepted`, `c30_open`, `c31_overflow_accepted`, `c31_ten_node_solids_gap`, `c33_no_elements_no_error`, `c33_out_of_range_partial`, `c34_absent_data`, `c34_all_node_data_partial`, `c34_all_time`, `c36_missing_ids`, `c37_interleaved_not_sorted`, `c37_overlapping_copy`, `c38_shell_strain_guess`, `c38_solid_too_short`, `c38_solids_exact_example`, `c38_strain_flag_unset`, `c38_thick_heap_overflow`, `c39_mean_of_two_points`, `c41_extra_line`, `c41_stale_newline`, `c49_no_trim_short`, `c55_failed_access_is_undefined`, `c60_not_sorted`, `c63_no_cards`, `c67_part_count`, `c70_float_text`, `c73_no_parts_ub`, `c77_sample_stale`, `c77_sample_untitled`, `c78_sample`, `c79_other_eq`, `c79_text_other`, `c79_view`, `c82_no_steps_leaks`, `c87_lost_each_read`, `c87_lost_nothing`, `c90_fits`, `c90_not_sorted`, `c90_overlap`, `c93_not_begun`, `c95_wrong`.
