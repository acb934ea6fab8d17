{"id": "C01", "title": "Id lookup is exact", "statement": "d3plot_index_for_id on an ascending id list returns the position of the id if it occurs and the not-found value if it does not; it terminates and never inspects an element outside the list, provided the list is not empty.", "quantifier": "every ascending non-empty id array of any length, every id", "why_tests_cant": "the recursion splits on every length and every position; tests pick a handful of lengths", "anchors": ["src/d3plot.c:d3plot_index_for_id", "src/binary_search.c:d3_word_binary_search"]}
{"id": "C02", "title": "Sorted insertion point is exact", "statement": "The insertion search used by the binout directory and by the keyword list reports 'found' exactly when an equal name is present, and otherwise reports the unique position at which inserting the new name keeps the list sorted.", "quantifier": "every sorted non-empty list of names, every name", "why_tests_cant": "off-by-one errors in a split depend on length parity and on the position of the key", "anchors": ["src/binary_search.c:binout_directory_binary_search_entry_insert", "src/binary_search.c:key_file_binary_search_insert"]}
{"id": "C03", "title": "Path components", "statement": "Walking a path with path_view_new and path_view_advance visits exactly the non-empty components between '/' characters, in order, whatever number of leading, trailing or repeated separators the path has.", "quantifier": "every non-empty byte string without NUL", "why_tests_cant": "unbounded strings with any pattern of separators", "anchors": ["src/path_view.c:path_view_new", "src/path_view.c:path_view_advance"]}
{"id": "C04", "title": "Component comparison agrees with the sort order of names", "statement": "Comparing a path component with a stored name gives zero exactly when they are the same bytes, and its sign agrees with strcmp, so a binary search with it on a strcmp-sorted list is valid, for every name.", "quantifier": "every component and every name", "why_tests_cant": "the order must be right for every pair of strings, including non-ASCII bytes", "anchors": ["src/path_view.c:path_view_strcmp", "src/binary_search.c:binout_directory_binary_search_entry"]}
{"id": "C05", "title": "path_join", "statement": "path_join(a,b) yields a and b separated by separators only: its components are those of a followed by those of b, whatever separators a ends or b begins with.", "quantifier": "every pair of strings with a non-empty", "why_tests_cant": "unbounded strings, every combination of separators at the joint", "anchors": ["src/path.c:path_join"]}
{"id": "C06", "title": "path_move_up", "statement": "path_move_up on a path returns the index at which the parent's text ends: cutting the path there leaves all components but the last, and a path without parent is reported as such.", "quantifier": "every non-empty string", "why_tests_cant": "unbounded strings, every pattern of separators", "anchors": ["src/path.c:path_move_up"]}
{"id": "C07", "title": "Directory order invariant", "statement": "After opening any binout, every folder lists its children in strictly increasing name order, without duplicates.", "quantifier": "every sequence of folder and file insertions starting from the empty directory", "why_tests_cant": "an invariant over every history of insertions", "anchors": ["src/binout_directory.c:binout_directory_insert_folder", "src/binout_directory.c:binout_folder_insert_file", "src/binout_directory.c:_binout_folder_insert_entry"]}
{"id": "C08", "title": "Last writer wins", "statement": "A lookup of a variable path returns the description (type, size, file, position) given by the last record written under exactly that path, and nothing if no record was written there.", "quantifier": "every sequence of insertions that never uses a name both as file and as folder, with ASCII names, and every looked-up path", "why_tests_cant": "quantifies over histories and over all other paths that must be unaffected", "anchors": ["src/binout_directory.c:binout_directory_get_file", "src/binout_directory.c:binout_folder_insert_file", "src/binout.c:binout_variable_exists"]}
{"id": "C09", "title": "Children listing is complete", "statement": "binout_get_children on a folder returns exactly the names that occur directly below that path in the inserted records, each once, in sorted order; on a path that is not a folder it returns no names (not-found, or zero children if the path runs below an empty folder).", "quantifier": "every directory history and every path", "why_tests_cant": "completeness and soundness over every history", "anchors": ["src/binout_directory.c:binout_directory_get_children", "src/binout.c:binout_get_children"]}
{"id": "C10", "title": "Lookups only depend on components", "statement": "Two spellings of a path that differ only in repeated or trailing separators always give the same result in every directory query.", "quantifier": "every pair of absolute paths with equal component lists, every directory", "why_tests_cant": "unbounded family of spellings", "anchors": ["src/binout_directory.c:binout_directory_get_file", "src/binout_directory.c:binout_directory_get_children", "src/path_view.c:path_view_advance"]}
{"id": "C11", "title": "A name is never silently both file and folder", "statement": "Inserting a file where a folder exists, or a folder where a file exists, leaves the directory intact and well formed (no entry refers to released memory).", "quantifier": "every history of insertions", "why_tests_cant": "depends on the order of records in the file", "anchors": ["src/binout_directory.c:binout_folder_insert_file", "src/binout_directory.c:_binout_folder_insert_entry"]}
{"id": "C12", "title": "Record round trip", "statement": "Opening a file that consists of the binout header followed by any sequence of CD, DATA and other records, written with any field widths from 1 to 8, reports exactly those records: every variable appears with its type, its byte size and the position of its first payload byte.", "quantifier": "every list of records, every header field widths in 1..8, all payload bytes", "why_tests_cant": "encode/decode round trip over unbounded files", "anchors": ["src/binout.c:binout_open", "src/binout.c:_binout_read_header", "src/binout_defines.h"]}
{"id": "C13", "title": "Parsing terminates and stays inside the file", "statement": "Parsing any byte sequence as a binout terminates, and every variable reported from a file that parsed without error has its payload completely inside that file.", "quantifier": "every byte sequence", "why_tests_cant": "adversarial contents: record lengths are arbitrary 64 bit numbers", "anchors": ["src/binout.c:binout_open"]}
{"id": "C14", "title": "Unknown records are ignored", "statement": "Records with a command other than CD and DATA do not influence the resulting directory.", "quantifier": "every record list, every position at which such records occur", "why_tests_cant": "unbounded interleavings", "anchors": ["src/binout.c:binout_open"]}
{"id": "C15", "title": "Change-directory semantics", "statement": "The current folder after a sequence of CD records is the one that POSIX-like path resolution gives: absolute paths replace it, relative components are appended, '..' removes the last component.", "quantifier": "every sequence of CD paths that stay below the root", "why_tests_cant": "a state machine over unbounded histories", "anchors": ["src/binout.c:binout_open", "src/path.c:path_move_up"]}
{"id": "C16", "title": "Truncated or damaged files are reported", "statement": "A file cut at any point other than a record boundary never parses without an error string: the call returns normally and reports an error that names the file, it does not abort. Damage in the header (wrong endianness, float format, oversized fields) is reported. (A file that starts with a DATA record is fatal: the assertion fails.)", "quantifier": "every well formed file and every cut position", "why_tests_cant": "every crash point of the writer", "anchors": ["src/binout.c:binout_open", "src/binout.c:_binout_read_header"]}
{"id": "C17", "title": "Variables stay attached to their file", "statement": "When several files are opened together, every variable is read from the file that contained its DATA record, even if other files of the set fail to open or are damaged.", "quantifier": "every list of files and every subset of failing files", "why_tests_cant": "depends on which files fail, and in what order", "anchors": ["src/binout.c:binout_open"]}
{"id": "C18", "title": "binout_read returns the payload", "statement": "Reading a variable with the type it was written with returns exactly its payload, with size/typesize elements; a missing variable, a different type or a variable without data yields an error and no data.", "quantifier": "every directory, path and requested type", "why_tests_cant": "all sizes, types and contents", "anchors": ["src/binout_read.c:_binout_read"]}
{"id": "C19", "title": "binout_read_timed concatenates the timesteps", "statement": "binout_read_timed returns the values of all timesteps, in timestep order, each timestep being one row of equal length.", "quantifier": "every directory whose d-folders all hold the variable with the same size", "why_tests_cant": "any number of timesteps and values", "anchors": ["src/binout_read.c:_binout_read_timed"]}
{"id": "C20", "title": "Number of timesteps", "statement": "binout_get_num_timesteps returns the number of timestep folders (d followed by digits) below the path; not-found for unknown paths; 0 if there are none.", "quantifier": "every directory and every path", "why_tests_cant": "all mixtures of timestep folders and other entries", "anchors": ["src/binout.c:binout_get_num_timesteps", "src/binout.c:_binout_is_d_string"]}
{"id": "C21", "title": "Error texts accumulate", "statement": "The error string after opening lists the errors of all failing files in order, one per line, and is absent exactly if no file failed.", "quantifier": "every list of per-file results", "why_tests_cant": "any number of failing files", "anchors": ["src/binout.c:_binout_add_file_error", "src/binout.c:binout_open"]}
{"id": "C22", "title": "File handles are exclusive", "statement": "No two threads ever hold the same file handle of a multi_file at the same time, in any interleaving of access and return calls.", "quantifier": "every schedule of any number of threads, every length, every outcome of fopen", "why_tests_cant": "interleavings", "anchors": ["src/multi_file.c:multi_file_access", "src/multi_file.c:multi_file_return"]}
{"id": "C23", "title": "Concurrent reads see the right bytes", "statement": "In every interleaving, a thread that obtains a handle, seeks to a position and reads gets the bytes of the file at that position, independently of what other threads do.", "quantifier": "every schedule of seek/read steps of any number of threads", "why_tests_cant": "interleavings", "anchors": ["src/multi_file.c:multi_file_seek", "src/multi_file.c:multi_file_read", "src/multi_file.c:multi_file_access"]}
{"id": "C24", "title": "Idle handles are reused", "statement": "A new operating system handle is opened only if every already open handle is in use, so the number of handles never exceeds the maximal number of simultaneous users (when no fopen fails).", "quantifier": "every schedule", "why_tests_cant": "interleavings and history", "anchors": ["src/multi_file.c:multi_file_access"]}
{"id": "C25", "title": "Closing idle handles is safe", "statement": "Closing the idle handles never closes a handle that some thread is using, and when the call ends every file that is still open belongs to a handle in use.", "quantifier": "every schedule containing any number of idle-kill calls", "why_tests_cant": "interleavings", "anchors": ["src/d3_buffer.c:_d3_buffer_kill_idle_files", "src/multi_file.c:multi_file_access"]}
{"id": "C26", "title": "Word reads are slices of the concatenated family", "statement": "Seeking to a word and reading n words returns exactly those n words of the concatenation of all files of the family, no matter where file boundaries fall.", "quantifier": "every list of (word aligned) files, every position and count inside the data", "why_tests_cant": "all splits into files, all positions", "anchors": ["src/d3_buffer.c:d3_buffer_read_words", "src/d3_buffer.c:d3_buffer_seek", "src/d3_buffer.c:d3_buffer_next_file"]}
{"id": "C27", "title": "Reads beyond the end are errors", "statement": "A read or seek that goes beyond the last word of the family reports an error, and a read that lies completely inside reports none.", "quantifier": "every family of files, position and count", "why_tests_cant": "every boundary", "anchors": ["src/d3_buffer.c:d3_buffer_read_words", "src/d3_buffer.c:d3_buffer_seek", "src/d3_buffer.c:d3_buffer_skip_words"]}
{"id": "C28", "title": "Consecutive reads compose", "statement": "Reading n then m words yields the same data and the same final position as reading n+m words; skipping n words and reading gives what reading after those n words gives.", "quantifier": "every family of files, all n, m", "why_tests_cant": "all splits", "anchors": ["src/d3_buffer.c:d3_buffer_read_words", "src/d3_buffer.c:d3_buffer_skip_words"]}
{"id": "C29", "title": "Word size detection", "statement": "If exactly one of the two interpretations (4 and 8 byte words) of the first file has plausible control values, the library picks that word size; otherwise it reports an error instead of guessing.", "quantifier": "every file content", "why_tests_cant": "all contents", "anchors": ["src/d3_buffer.c:d3_buffer_open"]}
{"id": "C30", "title": "File family enumeration", "statement": "The family consists of root, root01, root02, ... up to the first number whose file is missing, in numeric order.", "quantifier": "every set of existing files", "why_tests_cant": "every set of existing files", "anchors": ["src/d3_buffer.c:d3_buffer_open"]}
{"id": "C31", "title": "Geometry layout", "statement": "The sections of the d3plot geometry (coordinates, solids, thick shells, beams, shells) are contiguous and disjoint, each with the length the control data prescribes.", "quantifier": "every control data block", "why_tests_cant": "symbolic sizes", "anchors": ["src/d3plot_data.c:_d3plot_read_geometry_data"]}
{"id": "C32", "title": "State addressing", "statement": "The data of state i and variable v is read at the word position at which the file stores it: first state start plus i state lengths plus offset of v, over all states found.", "quantifier": "every number of states, every state and node/element count", "why_tests_cant": "symbolic sizes and any number of states", "anchors": ["src/d3plot_state.c:_d3plot_read_state_data", "src/d3plot.c:_d3plot_read_node_data"]}
{"id": "C33", "title": "State out of range is an error", "statement": "Every per-state read with a state index not smaller than the number of time steps fails with an error and returns no data.", "quantifier": "every file and every index", "why_tests_cant": "all indices", "anchors": ["src/d3plot.c:_d3plot_read_node_data", "src/d3plot.c"]}
{"id": "C34", "title": "Reading all states equals reading each state", "statement": "d3plot_read_all_time and d3plot_read_all_node_* return the concatenation over states of the per-state result.", "quantifier": "every file and every number of states", "why_tests_cant": "any number of states", "anchors": ["src/d3plot.c:d3plot_read_all_time", "src/d3plot.c:d3plot_read_all_node_coordinates"]}
{"id": "C35", "title": "Connectivity indices are zero-based", "statement": "Every element's node index reported is the stored one-based number minus one, in the stored order, and the material index likewise.", "quantifier": "every element table with positive numbers", "why_tests_cant": "all tables", "anchors": ["src/d3plot.c:d3plot_read_solid_elements", "src/d3plot.c:d3plot_read_shell_elements"]}
{"id": "C36", "title": "Part contents", "statement": "d3plot_read_part returns exactly the elements whose material index is the part's index, in file order, with ids matching positions; an unused part index gives an error.", "quantifier": "every element table and every part index", "why_tests_cant": "all tables", "anchors": ["src/d3plot.c:d3plot_read_part"]}
{"id": "C37", "title": "Union of sorted id lists", "statement": "Merging sorted element or node id lists for a part yields the sorted union.", "quantifier": "every pair of sorted lists", "why_tests_cant": "all interleavings of ids", "anchors": ["src/d3plot.c:_insert_sorted", "src/d3plot_part_nodes.c:d3plot_part_get_all_element_ids"]}
{"id": "C38", "title": "Element state decoding is memory safe", "statement": "Decoding solid, beam, shell and thick shell state data reads only values belonging to the requested state and writes only inside the allocated result, for every accepted control data.", "quantifier": "every control data accepted by d3plot_open", "why_tests_cant": "symbolic sizes", "anchors": ["src/d3plot.c:d3plot_read_thick_shells_state", "src/d3plot.c:d3plot_read_shells_state"]}
{"id": "C39", "title": "Shell integration point decoding", "statement": "In the decoded shell state, integration point k of element e is the stored block k of element e (mid, inner, outer, then additional points).", "quantifier": "every number of elements, integration points and history variables", "why_tests_cant": "symbolic sizes", "anchors": ["src/d3plot.c:d3plot_read_shells_state"]}
{"id": "C40", "title": "Control data derivation", "statement": "The derived quantities (dimension, deletion option, number of integration points, beam integration points) are the values documented for the raw control words, and the deletion option and number of integration points can be recovered uniquely from the raw word.", "quantifier": "all raw control words", "why_tests_cant": "all integers", "anchors": ["src/d3plot.c:d3plot_open", "src/d3_defines.h"]}
{"id": "C41", "title": "Line splitting is independent of chunking", "statement": "The line reader delivers the lines of the file (text between newlines, carriage returns removed), independent of the buffer size and of where chunks end.", "quantifier": "every file content and every chunk size", "why_tests_cant": "all alignments of lines and chunk boundaries", "anchors": ["src/line.c:read_line"]}
{"id": "C42", "title": "Comment detection", "statement": "For every line the reader reports the position of the first '$' outside or the not-a-comment value if there is none.", "quantifier": "every line", "why_tests_cant": "all contents", "anchors": ["src/line.c:read_line"]}
{"id": "C43", "title": "Keyword/card event sequence", "statement": "Parsing calls the callback once per card in file order, with the name of the enclosing keyword and consecutive card indices from 0; a keyword without cards gives one call without card; nothing after *END is reported; comment lines are never reported.", "quantifier": "every sequence of lines", "why_tests_cant": "all sequences", "anchors": ["src/key.c:key_file_parse_with_callback"]}
{"id": "C44", "title": "Keywords are grouped stably", "statement": "The parsed keyword list is sorted by name, and keywords with equal names keep file order; every card of the file is in the list exactly once.", "quantifier": "every sequence of callback events", "why_tests_cant": "all sequences", "anchors": ["src/key.c:key_file_parse_callback"]}
{"id": "C45", "title": "key_file_get", "statement": "key_file_get(name, i) returns the i-th keyword (in file order) with that name and NULL if there are i or fewer.", "quantifier": "every keyword list, name and index", "why_tests_cant": "all lists and indices", "anchors": ["src/key.c:key_file_get"]}
{"id": "C46", "title": "key_file_get_slice", "statement": "key_file_get_slice(name) returns exactly the contiguous range of all keywords with that name.", "quantifier": "every keyword list and name", "why_tests_cant": "all lists", "anchors": ["src/key.c:key_file_get_slice"]}
{"id": "C47", "title": "Card field cursor", "statement": "Iterating over a card with width w visits the fields [0,w), [w,2w), ... and ends at the end of the text without touching memory behind the terminator.", "quantifier": "every card text and width", "why_tests_cant": "all lengths relative to the width", "anchors": ["src/key.c:card_parse_begin", "src/key.c:card_parse_next_width", "src/key.c:card_parse_done"]}
{"id": "C48", "title": "Integer fields", "statement": "card_parse_int_width returns the value of a decimal integer field, for every integer and any surrounding blanks, and signals an error for a field that is not an integer.", "quantifier": "every integer, every padding, every width", "why_tests_cant": "all values and paddings", "anchors": ["src/key.c:card_parse_int_width"]}
{"id": "C49", "title": "String fields", "statement": "card_parse_string_width returns the field without surrounding blanks; a blank-free, non-empty string padded to the field width is read back unchanged.", "quantifier": "every string and padding", "why_tests_cant": "all contents", "anchors": ["src/key.c:card_parse_string_width"]}
{"id": "C50", "title": "Field type classification agrees with the parsers", "statement": "If card_parse_get_type classifies a field as integer (float) then parsing it as integer (float) succeeds.", "quantifier": "every field text", "why_tests_cant": "all contents", "anchors": ["src/key.c:card_parse_get_type_width", "src/key.c:card_parse_int_width", "src/key.c:card_parse_float64_width"]}
{"id": "C51", "title": "Emptiness test", "statement": "card_parse_is_empty is true exactly if the field consists of blanks only up to its width or the end of the card.", "quantifier": "every card, position and width", "why_tests_cant": "all contents", "anchors": ["src/key.c:card_parse_is_empty_width"]}
{"id": "C52", "title": "String building", "statement": "string_builder_move returns the concatenation of everything appended, in order, and every write stays inside the allocation.", "quantifier": "every sequence of appends", "why_tests_cant": "all histories and capacities", "anchors": ["src/string_builder.c"]}
{"id": "C53", "title": "Include resolution", "statement": "An include file is opened from the first directory of the search list (current directory, extra paths, then *INCLUDE_PATH entries) in which it exists; if it exists in none an error (or warning) is reported.", "quantifier": "every list of include paths and every file system", "why_tests_cant": "all file systems", "anchors": ["src/key.c:key_parse_include"]}
{"id": "C54", "title": "Array bounds", "statement": "Indexing the C++ Array wrapper returns the element for every index below its size and throws for every other index; comparing a String with a text is true exactly if the texts are equal.", "quantifier": "every array, index and text", "why_tests_cant": "all indices and contents", "anchors": ["src/cpp/array.hpp"]}
{"id": "C55", "title": "Errors do not outlive the failing call", "statement": "A call that fails leaves the d3plot handle usable: a following valid read succeeds.", "quantifier": "every history of calls", "why_tests_cant": "depends on history", "anchors": ["src/d3_buffer.c:d3_buffer_read_words", "src/d3_defines.h:D3PLOT_CLEAR_ERROR_STRING"]}
{"id": "C56", "title": "Shared file access never deadlocks", "statement": "However many threads open, use, return and close idle handles of one shared file, and whatever fopen does, whenever some thread is inside such a call, at least one thread inside a call can make progress, and a call that has obtained the lock of the handle table releases it after a number of its own steps bounded by the number of handles, regardless of what the other threads do.", "quantifier": "all numbers of threads, all interleavings, all outcomes of fopen, all reachable states", "why_tests_cant": "deadlock depends on the schedule; tests see a handful of schedules", "anchors": ["src/multi_file.c: multi_file_access, multi_file_return", "src/d3_buffer.c: _d3_buffer_kill_idle_files"]}
{"id": "C57", "title": "Floating point fields", "statement": "card_parse_float32/64 read a decimal number (optional sign, digits, optional fraction, optional exponent with optional sign, surrounding blanks) as the value of that number up to rounding, wherever the field is in the card.", "quantifier": "every decimal numeral whose exponent digits fit an int, every padding, position and width within the first 255 characters", "why_tests_cant": "all numerals and paddings", "anchors": ["src/key.c:card_parse_float32_width", "src/key.c:card_parse_float64_width"]}
{"id": "C58", "title": "C++ arrays are values and own their memory", "statement": "A program that constructs, copies, moves, assigns, writes and destroys dro::Array objects within their lifetimes never frees a block twice, never frees lent memory and never touches freed memory; every array always has the elements it would have if arrays were values (copies are independent, a moved from array is empty); when all arrays are destroyed all memory they owned is freed.", "quantifier": "all finite sequences of array operations on any number of arrays", "why_tests_cant": "all histories and aliasing patterns", "anchors": ["src/cpp/array.hpp"]}
{"id": "C59", "title": "Nodes of a part are exactly the nodes of its elements", "statement": "d3plot_part_get_node_ids and d3plot_part_get_node_indices return exactly the ids (indices) of the nodes that are used by at least one element of the part, each once and in ascending order, whatever mixture of solids, thick shells, beams and shells the part has; the returned count is the length of the list. With preloaded connectivity arrays the result is the same as without.", "quantifier": "every plot with ascending element ids, every part (all element id lists), every connectivity", "why_tests_cant": "The result is built by repeated insertion into a growing sorted array; that nothing is lost, duplicated or misplaced must hold for every part and every connectivity, not for the ones in a sample file.", "anchors": ["src/d3plot_part_nodes.c:d3plot_part_get_node_ids2", "src/d3plot_part_nodes.c:d3plot_part_get_node_indices2", "src/pgni.h", "src/binary_search.c"]}
{"id": "C60", "title": "All element ids of a part", "statement": "d3plot_part_get_all_element_ids returns the ids of all the elements of the part (solids, beams, shells, thick shells), each as often as the part lists it, in ascending order, and their number.", "quantifier": "every part", "why_tests_cant": "The list is assembled by reallocating and copying per element kind; whether the copies land in the right block depends on the allocator and on the combination of kinds.", "anchors": ["src/d3plot_part_nodes.c:d3plot_part_get_all_element_ids"]}
{"id": "C61", "title": "Simple paths resolve to real paths", "statement": "binout_simple_path_to_real looks for every component of the simple path in the folder reached so far, then in that folder's metadata, then in its first time step, and returns the resulting path (metadata spelled out, time steps left out), the type of the variable and whether a time step was entered; it returns NULL exactly if some component is in none of the three places. A path that exists is returned unchanged up to repeated separators. If the result is not timed and has a type, binout_get_type_id gives that type for the real path and binout_read succeeds with it; if it is timed, binout_read_timed with the real path returns the values of all time steps.", "quantifier": "every set of well formed files without variables called metadata or like a time step, every non-empty simple path (absolute or relative, any separators)", "why_tests_cant": "all directory trees and all spellings of paths", "anchors": ["src/binout.c:binout_simple_path_to_real", "src/binout.c:binout_get_type_id", "src/binout.c:_binout_is_metadata_string"]}
{"id": "C62", "title": "Long keyword names and card lines are handled as texts", "statement": "Lines and keyword names are kept in a fixed array of 82 bytes and an allocated rest. Reading and cutting act on the text as a whole; the callback gets exactly the name (the text behind the asterisk up to the first blank or the cut-off comment) and exactly the card line, for every length; the comparison with a keyword is 0 exactly for the same text and the prefix test is exact for the (short) prefixes the parser uses, all without leaving the memory. Taking the name of a line is undefined behaviour exactly when the line has at least 82 bytes and more leading blanks than bytes beyond the 82nd, or when it has more than 81 leading blanks; comparing two texts that agree in 82 bytes reads behind the memory and the prefix test is wrong when a text of at least 82 bytes is a beginning of the prefix.", "quantifier": "every line and name of any length and content, every previous content of the memory, every compared text and prefix", "why_tests_cant": "all lengths around the boundary between array and block, all offsets and all contents", "anchors": ["src/extra_string.c:extra_string_copy", "src/extra_string.c:extra_string_compare", "src/extra_string.c:extra_string_starts_with", "src/extra_string.c:extra_string_copy_to_string", "src/key.c:key_file_parse_with_callback"]}
{"id": "C63", "title": "INCLUDE_TRANSFORM cards are read column by column", "statement": "For every INCLUDE_TRANSFORM keyword whose cards consist of complete 10 character columns, key_parse_include_transform returns the trimmed file name, the seven id offsets, idroff, prefix, suffix, the three unit factors, fcttem, incout1 and tranid that the columns say; a missing column, card or a column that holds no number leaves the documented default (0, or 1 for factors), and cards after the fifth are not looked at.", "quantifier": "all file names, all numbers of cards, all numbers of complete columns per card (up to 24) and all column contents without NUL (integers, floats, text, blank)", "why_tests_cant": "the set of cards and column contents is unbounded; tests read a handful of literal cards", "anchors": ["src/include_transform.c: key_parse_include_transform, key_parse_include_transform_card, _card_try_parse_int, _card_try_parse_float64"]}
{"id": "C64", "title": "DEFINE_TRANSFORMATION keeps every option in order", "statement": "For every DEFINE_TRANSFORMATION(_TITLE) keyword with complete 10 character columns, key_parse_define_transformation returns the title (only for the _TITLE variant), the transformation id of the first (second) card, and exactly one option per further card, in order, with its name and seven parameters (0 where missing or no number).", "quantifier": "all numbers of option cards, all numbers of complete columns and all column contents without NUL, both variants", "why_tests_cant": "the number of options is unbounded and a test only sees one arrangement", "anchors": ["src/include_transform.c: key_parse_define_transformation, key_parse_define_transformation_card"]}
{"id": "C65", "title": "Binout reads that cannot be satisfied are errors, not partial data", "statement": "A binout read (single or over time) of a path that does not lead to a variable, of a variable that some time step lacks, of a variable smaller than one value, or of a file that was removed or shortened since it was opened, returns an error; if it returns data, the data is the complete content of the variable (of the variable in every time step).", "quantifier": "for all well formed sets of binout files, all paths, types, sets of time steps and all ways in which the files get shorter after the open", "why_tests_cant": "The failing position depends on the combination of tree shape, path and cut point; tests can only try a few of the combinations.", "anchors": ["src/binout_read.c:_binout_read", "src/binout_read.c:_binout_search_timed", "src/binout_read.c:_binout_open_timed_path", "src/binout_read.c:_binout_read_timed"]}
{"id": "C66", "title": "Unsupported or damaged d3plot databases are rejected with an error", "statement": "If opening a d3plot database succeeds, its control words describe a supported database (three dimensions with unpacked connectivity, ICODE 2 or 6, no temperatures, no rigid shells, no particles, no fluids, no airbags, at most 255 history variables and integration points, none of the four IDTDT extras). A complete buffer whose control words are not supported, a file type other than d3plot (1, or 1001 for the 1000-offset variant), or a header whose geometry is not followed by the end marker gives an error and never a handle. The end marker is exactly the number -999999.0 in the word size of the file.", "quantifier": "for all families of files (single and double precision) and all values of the control words", "why_tests_cant": "The control section has more than sixty words with interacting encodings; every combination of values must be sorted into accepted or rejected without undefined behaviour, and tests only have a few sample files.", "anchors": ["src/d3plot.c:d3plot_open", "src/d3plot_data.c:_d3plot_read_header", "src/d3_defines.h", "src/d3plot_data.c:_d3plot_read_geometry_data"]}
{"id": "C67", "title": "Title, run time and ids of a d3plot database are the words of its header", "statement": "For every d3plot database that opens: the title is words 0-9 and the run time word 10 of the family; if it has a section with ids, that section agrees with the numbers of nodes and elements in the control data, lies completely inside of the family, and the calls for node, solid, beam, shell, thick shell and part ids return exactly its words in that order (header of 10 or 16 words first).", "quantifier": "for all families of files that open, of either word size, with control words below 2^32 and NEL8 >= 0", "why_tests_cant": "The position of the ids depends on eight control words, the optional control block, the part table of higher order elements and the sign of the first id word; a sample file only exercises one combination.", "anchors": ["src/d3plot.c:d3plot_read_title", "src/d3plot.c:d3plot_read_epoch_run_time", "src/d3plot.c:d3plot_read_node_ids", "src/d3plot.c:_d3plot_read_ids", "src/d3plot.c:d3plot_read_part_ids", "src/d3plot_data.c:_d3plot_read_user_identification_numbers"]}
{"id": "C68", "title": "A key file with include files means what its text says", "statement": "Parsing a key file calls the callback, reports errors and warnings and extends the search paths exactly as the text of the file and of all files it includes, directly or indirectly, says: keyword by keyword up to *END; cards are reported without comments; names of files and directories may be continued with ' +' and are trimmed; *INCLUDE parses each named file in place, found in the first search path that has it, with the search paths valid at this point; *INCLUDE_BINARY and *INCLUDE_NASTRAN include one file and warn about superfluous cards with file, line and count; *INCLUDE_PATH and *INCLUDE_PATH_RELATIVE add existing directories (relative to the directory of the main file) and warn about others; other INCLUDE keywords report the joined file name and then their cards; missing files give an error or a warning with file and line.", "quantifier": "all file systems, configurations and trees of include files of any depth whose files contain no NUL, have named keywords with unproblematic lengths, file names of at least two characters, and messages shorter than 1024 bytes", "why_tests_cant": "The include tree, the number of files, lines, continuation cards and search paths are unbounded.", "anchors": ["/repo/src/key.c: key_file_parse_with_callback, _parse_multi_line_string", "/repo/src/path.c: path_join, path_move_up"]}
{"id": "C69", "title": "Calls on an open binout answer from the files and leave the message of the last call", "statement": "After binout_open returned without an error, any sequence of calls of binout_get_type_id, binout_variable_exists, binout_get_children and binout_read_<type> in any order gives, call by call, the answer the records of the files determine (type and payload of the last record of that path; names of the children in ascending order), independent of the calls before. After each call binout_open_error returns the message of the last type or read call (path not found, type NAME instead of NAME, empty) or NULL if that call succeeded; existence and children calls leave it unchanged. No call overruns its message memory for paths of at most 983 bytes; looking up the type of a missing path overruns it exactly if the path is longer than 1002 bytes. If files vanish or shrink meanwhile, a read returns data exactly if it leaves no message.", "quantifier": "all sets of well formed files, all finite sequences of calls with absolute paths; for the error/data dichotomy all directories and states of the files", "why_tests_cant": "The order and number of calls, the paths and the files are unbounded.", "anchors": ["/repo/src/binout.c: binout_get_type_id, binout_variable_exists, binout_get_children, binout_open_error, _binout_get_type_name", "/repo/src/binout_read.c: _binout_read", "/repo/src/binout_defines.h: NEW_ERROR_STRING_F, BINOUT_CLEAR_ERROR_STRING"]}
{"id": "C70", "title": "Card::parse<T> returns the number of the field or throws", "statement": "For every integral type T, card position and width: a field that contains a decimal number with blanks around it is returned by Card::parse<T> if T can represent it, otherwise an exception is thrown. A field that is not a number gives an exception.", "quantifier": "all cards, cursor positions and widths (columns below 256), all integral types and numbers below 2^63", "why_tests_cant": "Fields and values are unbounded and the ranges differ for each type.", "anchors": ["/repo/src/cpp/key.hpp: Card::parse", "/repo/src/key.c: card_parse_int_width, card_parse_float64_width"]}
{"id": "C71", "title": "Card::parse_whole assigns the values of all columns", "statement": "The four functions Card::parse_whole (with and without widths, returning a tuple or assigning variables) return for any list of types and widths the values written in the columns of these widths, blank fields give 0 or the empty text, and an integer outside of the range of its type gives an exception after exactly the fields before it have been assigned. They never read behind the card.", "quantifier": "all cards and lists of types and widths (sum below 256)", "why_tests_cant": "All lists of types, widths and card texts.", "anchors": ["/repo/src/cpp/key.hpp: Card::parse_whole, Card::parse_whole_width, Card::begin", "/repo/src/key.c: card_parse_next_width, card_parse_is_empty_width"]}
{"id": "C72", "title": "Keywords[name] and iteration visit exactly the keywords of that name", "statement": "keywords[name] gives a slice whose iteration visits each keyword of that name once in file order; indexing gives the same keywords; an index outside throws; a name that does not occur throws. Iterating over a keyword visits all its cards in order and indexing outside throws.", "quantifier": "all key files (sorted lists of keywords), names, slices and indices", "why_tests_cant": "All lists of keywords and all slices.", "anchors": ["/repo/src/cpp/key.cpp: Keywords::operator[], KeywordSlice, KeywordSlice::Iterator, Keyword::Iterator", "/repo/src/key.c: key_file_get_slice"]}
{"id": "C73", "title": "Titles of the database and of the parts are the bytes of the file", "statement": "d3plot_read_title returns the first ten words of the database. d3plot_read_part_titles returns for part i the 72 bytes behind the id in entry i of the section with the titles (the last section 90001 of the header), for every number of parts and word size, and reports an error if there is no such section; d3plot_read_part_ids takes the ids from the same entries if the ids section has none. The C++ functions return these texts without the blanks at the end.", "quantifier": "all families of files, numbers of parts, word sizes and texts", "why_tests_cant": "All headers (any sequence of blocks), all numbers of parts, all texts.", "anchors": ["/repo/src/d3plot.c: d3plot_read_title, d3plot_read_part_titles, d3plot_read_part_ids", "/repo/src/d3plot_data.c: _d3plot_read_header", "/repo/src/cpp/d3plot.cpp: D3plot::read_title, D3plot::read_part_titles"]}
{"id": "C74", "title": "D3plotPart objects are values", "statement": "Every program that reads parts, copies, moves, assigns and destroys D3plotPart objects in C++ behaves as if parts were values: every live object has exactly the ids and indices that reading, copying or moving gave it, copies do not influence each other, no memory is used after it was freed, no memory is freed twice, and after the last object is destroyed no memory is left.", "quantifier": "all sequences of constructing, copying, moving, assigning and destroying parts, all parts", "why_tests_cant": "All sequences of operations over any number of objects.", "anchors": ["/repo/src/cpp/d3plot_part.cpp: D3plotPart::D3plotPart, D3plotPart::operator=, D3plotPart::~D3plotPart", "/repo/src/d3plot.c: d3plot_free_part"]}
{"id": "C75", "title": "The nodes of a part in C++ are the nodes of its elements", "statement": "D3plotPart::get_node_ids, get_node_indices and get_num_nodes return the ids, indices and number of the nodes of the elements of the part, ascending and every node once, no matter which of the tables (ids and connectivity of each kind) the caller passes and which are left to the function to load.", "quantifier": "all files, parts and choices of the tables that are passed", "why_tests_cant": "All connectivities, all 2^9 choices of passed tables, all numbers of elements of each kind.", "anchors": ["/repo/src/cpp/d3plot_part.cpp: D3plotPart::get_node_ids, D3plotPart::get_node_indices, D3plotPart::get_num_nodes", "/repo/src/d3plot_part_nodes.c: d3plot_part_get_node_ids2", "/repo/src/pgni.h"]}
{"id": "C76", "title": "Messages of C++ exceptions and names of children last as long as the objects that hold them", "statement": "what() of an exception thrown by a Binout or D3plot returns the message of the failed call as long as the exception exists, and the names that Binout::get_children returns can be used as long as the list exists, whatever the program does with its files in the meantime.", "quantifier": "all programs with any number of files, exceptions and lists: all sequences of opening, reading, failing, moving, copying and destroying", "why_tests_cant": "All interleavings of operations on any number of objects; freed memory often still holds the text when a test looks at it.", "anchors": ["/repo/src/cpp/binout.cpp: Binout::Exception, Binout::read, Binout::get_children, Binout::operator=", "/repo/src/cpp/d3plot.cpp: D3plot::Exception, D3plot::operator=", "/repo/src/binout.c: binout_close"]}
{"id": "C77", "title": "IncludeTransform and DefineTransformation objects behave as values", "statement": "A copy of an IncludeTransform or DefineTransformation object has the same numbers, texts and options as the original and is independent of it, assignment replaces everything the target held, a moved object is empty, and destroying all objects frees all memory, for every program that makes, parses into, copies, moves, assigns, reads and destroys such objects.", "quantifier": "all programs (sequences of operations of any length on any number of objects), all numbers and texts, present or missing", "why_tests_cant": "All sequences of operations on any number of objects; uninitialised members and lost memory rarely show up in a test.", "anchors": ["/repo/src/cpp/include_transform.cpp: IncludeTransform::operator=, DefineTransformation::operator=, DefineTransformation::DefineTransformation", "/repo/src/include_transform.c: key_free_include_transform, key_free_define_transformation"]}
{"id": "C78", "title": "Mean values of shells are means over all integration points", "statement": "In the result of d3plot_get_shell_mean and d3plot_get_thick_shell_mean every stress component, the effective plastic strain and every history variable is the mean of exactly this value over all integration points of the element, in the order they are stored, and nothing outside of the element is read.", "quantifier": "all elements of all files: any number of integration points and history variables, any numbers, any floating point arithmetic", "why_tests_cant": "Any number of points and variables; with few points the code reads behind the element, which a test may not notice.", "anchors": ["/repo/src/d3plot_state.c: d3plot_get_shell_mean, d3plot_get_thick_shell_mean"]}
{"id": "C79", "title": "Arrays and strings in Python", "statement": "In Python array[i] is the i-th element for i < len(array) and IndexError otherwise, iteration visits exactly the elements in order, array == list and text == str hold exactly if the contents are the same, < and > are the order of the alphabet, String(s) and SizedString(s) hold the bytes of s, and text[i] = c replaces exactly one character.", "quantifier": "all arrays and texts of any length, all indices, all operands", "why_tests_cant": "Any contents and lengths; the comparisons go wrong only for certain pairs (last character, one text the beginning of the other).", "anchors": ["/repo/src/python/conversions.hpp: array_getitem, array_setitem, array_equals, array_less_than, array_greater_than, add_array_to_module"]}
{"id": "C80", "title": "Fields of cards in Python have the type and value that is written", "statement": "Card.parse and Card.parse_whole in Python return one value per field: None for a blank field, an int for a decimal integer, a float for a decimal number, and otherwise the text without the blanks at its ends; parse_whole without widths reads all fields of width 10, with widths the columns of these widths; widths that are not 0 to 255 are an exception and nothing outside of the card is read.", "quantifier": "all cards of any content and length, all lists of widths, any cursor, any floating point arithmetic", "why_tests_cant": "Any text in any column; the reads behind the card are not noticed by a test.", "anchors": ["/repo/src/python/pybind11_key.cpp: python_card_parse, python_card_parse_whole"]}
{"id": "C81", "title": "Binout.read in Python returns the values or the names behind a path", "statement": "Binout.read(path) returns for a variable the array of its values, for a variable stored in time steps one array per time step in order, and for a folder the list of the names in it (for a folder that begins with d000001 and ends with metadata the names in these two), in increasing order; every listed name can be appended to the path. variable_exists, get_type_id and get_num_timesteps agree with it, and a path that leads nowhere is an exception.", "quantifier": "all sets of well formed binout files without variables named like metadata or time steps, all paths", "why_tests_cant": "Any directory tree and any path; the sample files have no empty folders, no names that occur twice and no long paths.", "anchors": ["/repo/src/python/pybind11_binout.cpp: Binout_read, Binout_get_type_id, Binout_variable_exists, Binout_get_num_timesteps", "/repo/src/cpp/binout.cpp: get_children, Binout_read_timed, simple_path_to_real"]}
{"id": "C82", "title": "The arrays of the time steps are independent values", "statement": "The arrays that Binout::read_timed (and Binout.read of a timed variable in Python) and D3plot::read_all_node_coordinates, read_all_node_velocity and read_all_node_acceleration return behave as independent lists of values for as long as each of them exists: reads see the values of the file or the last write, copies are independent, moves hand the values over, dropping one array does not affect another, and when all of them are gone all memory has been freed exactly once.", "quantifier": "all histories of reads with any number of time steps, copies, moves, drops, element reads and writes", "why_tests_cant": "Any order of lifetimes; a test that keeps the whole vector alive never sees the shared block, and a use after free usually returns the old values.", "anchors": ["/repo/src/cpp/binout.cpp: Binout_read_timed", "/repo/src/cpp/d3plot.cpp: read_all_node_coordinates, read_all_node_velocity, read_all_node_acceleration", "/repo/src/cpp/array.hpp: Array", "/repo/src/python/pybind11_binout.cpp: Binout_read"]}
{"id": "C83", "title": "A callback is told where the keyword or card is written", "statement": "Every call of the callback of key_file_parse_with_callback names, in its key_parse_info_t, the file in which the keyword or card is written and the number of its line (counted from one, with comment lines), the folder of the file with which the parse was started, and the search paths that are in effect: the working directory, the configured ones and the existing directories of the INCLUDE_PATH keywords so far.", "quantifier": "all file systems, configurations and key files with any nesting of include files; the texts for readable files (see C41, C43)", "why_tests_cant": "Any number of files, comments, continued lines and include depths; the tests do not look at the line numbers at all.", "anchors": ["/repo/src/key.c: key_file_parse_with_callback, KEY_PARSE_INFO", "/repo/src/key.h: key_parse_info_t, key_file_callback"]}
{"id": "C84", "title": "Without thread safety the users of a file do not disturb each other", "statement": "In builds with NO_THREAD_SAFETY all users of a multi_file_t share one FILE object. Nevertheless each of them sees its own position: multi_file_seek, multi_file_tell and multi_file_read through its index return what fseek, ftell and fread would return on a file of its own, whatever is done through other indices between the calls.", "quantifier": "all file contents and all sequences of calls of any number of users", "why_tests_cant": "All interleavings of any number of users; the library is normally tested in the thread safe build.", "anchors": ["/repo/src/multi_file.c: multi_file_access, multi_file_return, multi_file_seek, multi_file_tell, multi_file_read (NO_THREAD_SAFETY)", "/repo/src/multi_file.h: multi_file_index_t"]}
{"id": "C85", "title": "Families with more files than can be open at the same time (builds without thread safety)", "statement": "In builds with NO_THREAD_SAFETY a d3plot family can have more files than the process may have open. d3plot_open opens as many of the first files as possible; afterwards every file of the family can still be reached, by reading on from the previous file and by seeking to any word, never more files are open than at first, and no FILE object is lost.", "quantifier": "all numbers of files, limits of the process and numbers of files already open, all sequences of calls", "why_tests_cant": "The number of files and of possible open files is unbounded; a test would need a process at its limit of open files and a build without thread safety.", "anchors": ["/repo/src/d3_buffer.c: d3_buffer_open, d3_buffer_next_file, d3_buffer_seek (NO_THREAD_SAFETY)", "/repo/src/multi_file.c: multi_file_open, multi_file_close (NO_THREAD_SAFETY)"]}
{"id": "C86", "title": "Parsing a key file releases everything it allocates", "statement": "key_file_parse and key_file_parse_with_callback never use or free memory that has been freed, whatever files are included, whatever is not found and however long the lines, names and continued lines are. Everything that is passed to the callback can be read during the call. Afterwards exactly the returned keywords (which key_file_free releases completely, each block once), the error string and the warning string (if the user asked for them and there are messages) are allocated besides what was allocated before; after an error no keywords remain allocated.", "quantifier": "all file systems, file contents, configurations, callbacks that keep to their own memory, and contents of the heap", "why_tests_cant": "The allocations depend on the lengths of lines, on nested includes, on files that are missing and on continued lines in every combination; a leak or double free in one combination is not seen by tests of others.", "anchors": ["/repo/src/key.c: key_file_parse, key_file_parse_with_callback, key_file_parse_callback, key_file_free, _parse_multi_line_string", "/repo/src/extra_string.c: extra_string_copy", "/repo/src/line.c: read_line"]}
{"id": "C87", "title": "Element states release the memory they hold", "statement": "A state of shells, thick shells or beams can be read, used (get_mean), copied and destroyed in every order without memory being used or released after its release, and when all objects are destroyed exactly what was allocated before is allocated. Failed reads leave nothing allocated. In C, d3plot_free_shells_state, d3plot_free_thick_shells_state and d3plot_free_beams_state release a state completely.", "quantifier": "all control data (numbers of elements, integration points, history variables, word sizes), outcomes of reads, programs of reads, means, copies and destructions, contents of the heap, and both behaviours of malloc(0)", "why_tests_cant": "Whether a block is lost or released twice depends on the combination of control data, on the outcome of the read and on the order of destructions; tests use a few databases and do not see lost blocks at all.", "anchors": ["/repo/src/d3plot.c: d3plot_read_shells_state, d3plot_read_thick_shells_state, d3plot_read_beams_state, d3plot_free_shells_state, d3plot_free_thick_shells_state, d3plot_free_beams_state", "/repo/src/cpp/d3plot_state.cpp: D3plotShell, D3plotThickShell, D3plotSurface, Array destructors", "/repo/src/cpp/array.hpp: Array"]}
{"id": "C88", "title": "Opening and closing a binout releases everything it allocates", "statement": "binout_open and binout_close never use or release memory twice, whatever files the pattern matches, whatever they contain and wherever they fail. While the binout is open all names in its directory can be read. After binout_close (which may be called twice) exactly what was allocated before binout_open is allocated, and no file is open.", "quantifier": "all sets of files with arbitrary contents, files that are missing or fail at any record, numbers of records, contents of the heap, behaviours of realloc(p, 0), and numbers of repetitions", "why_tests_cant": "The directory is built by reallocations that depend on the order of all records of all files; a pointer into an array that has moved, a name released twice or a block that is lost in one order is not seen by tests with a few files, and lost blocks are never seen.", "anchors": ["/repo/src/binout.c: binout_open, binout_close, _binout_add_file_error, _binout_open_error", "/repo/src/binout_directory.c: binout_directory_insert_folder, binout_folder_insert_folder, binout_folder_insert_file, binout_directory_free, binout_folder_free", "/repo/src/multi_file.c: multi_file_open, multi_file_access, multi_file_close"]}
{"id": "C89", "title": "Opening, reading and closing a d3plot releases everything and keeps no file handle in use", "statement": "d3plot_open, the functions that read times, node data, ids, titles, elements and parts, and d3plot_close never use or release memory that is not allocated, whatever the files contain and wherever reading fails. After any sequence of calls exactly the blocks of the file, the blocks given to the caller (nothing for a call that fails) and what was allocated before are allocated, each file of the family has been opened at most once, and no handle is in use. After d3plot_close, also of a file that could not be opened, exactly what the caller got and has to release is left.", "quantifier": "all families of files with arbitrary bytes, word sizes, all finite sequences of reading calls with arbitrary arguments, all contents of the heap, both ways of converting precision (the _32 functions and the others)", "why_tests_cant": "Each reading function has several returns behind allocations and behind the acquisition of a file handle; a leaked block or a handle that stays locked appears only for files that end at a certain word, and tests do not observe either.", "anchors": ["/repo/src/d3plot.c: d3plot_open, d3plot_close, d3plot_read_node_coordinates, d3plot_read_part, d3plot_read_part_titles, d3plot_read_part_ids, _d3plot_read_node_data, _insert_sorted", "/repo/src/d3_buffer.c: d3_buffer_open, d3_buffer_read_words_at, d3_buffer_next_file, d3_buffer_close", "/repo/src/multi_file.c: multi_file_open, multi_file_access, multi_file_return, multi_file_close"]}
{"id": "C90", "title": "Ids of all elements of a d3plot", "statement": "d3plot_read_all_element_ids returns the ids of all solids, beams, shells and thick shells of the file, each as often as it occurs, in ascending order; a kind whose ids cannot be read is left out, and D3plot::read_all_element_ids in C++ throws if ids cannot be read.", "quantifier": "all open files and all ids of the four kinds", "why_tests_cant": "The ids of the four kinds are merged by copying blocks; whether the copies overlap and whether the place is right depends on the relative order and on the numbers of ids of all kinds, and the tests only have files with one arrangement.", "anchors": ["/repo/src/d3plot.c: d3plot_read_all_element_ids, _insert_sorted", "/repo/src/cpp/d3plot.cpp: D3plot::read_all_element_ids"]}
{"id": "C91", "title": "Memory of the queries for the nodes of a part and for all element ids", "statement": "d3plot_part_get_node_ids2, d3plot_part_get_node_indices2, d3plot_part_get_num_nodes2 and d3plot_read_all_element_ids release everything they allocate except the array they return, never use or release a block that has been released, and leave no file handle in use, whichever of the tables (node ids, element ids, connectivity) the caller passes and whichever are loaded; so that after releasing the results and closing the file nothing is left.", "quantifier": "all d3plot families, all sequences of reading calls, part queries (with any tables passed or loaded) and calls for all ids, in C and C++", "why_tests_cant": "A leak does not change a result, so a test without an allocator that counts cannot see it; which blocks are released depends on which tables were passed and which could be loaded, and the sequences of calls are unbounded.", "anchors": ["/repo/src/d3plot_part_nodes.c: d3plot_part_get_node_ids2, d3plot_part_get_node_indices2, d3plot_part_get_num_nodes2", "/repo/src/pgni.h: pgni_add_element_solids ... pgnind_add_element_thick_shells", "/repo/src/d3plot.c: d3plot_read_all_element_ids, _insert_sorted", "/repo/src/cpp/d3plot.cpp: D3plot::read_all_element_ids"]}
{"id": "C92", "title": "Memory and file handles of the calls on an open binout", "statement": "binout_get_type_id, binout_variable_exists, binout_get_children, binout_read_<type>, binout_read_timed_<type>, binout_get_num_timesteps, binout_simple_path_to_real and binout_open_error, called in any order and any number of times on an open binout, release everything they allocate except the one block they return; calls that fail return no block; no block is used or released after it has been released; every file handle that is taken is given back, also after a failed seek or read; the directory and the files are not changed; and after the results have been released and the binout has been closed nothing that these calls have allocated is left. binout_read_timed returns either data or sets the error string, never both or neither.", "quantifier": "all sets of binout files that can be opened (also damaged ones, as long as no variable has got the name of a folder), all programs of calls with any paths and types, and releases of results at any later point", "why_tests_cant": "A leak or a handle that is not given back does not change a result (another handle is opened instead), so no test of values can see it; the failing paths depend on the structure of the file, and the sequences of calls are unbounded.", "anchors": ["/repo/src/binout.c: binout_get_type_id, binout_variable_exists, binout_get_children, binout_open_error, binout_get_num_timesteps, binout_simple_path_to_real", "/repo/src/binout_read.c: _binout_read, _binout_search_timed, timed_path_free, _binout_read_timed", "/repo/src/binout_defines.h: NEW_ERROR_STRING_F, BINOUT_CLEAR_ERROR_STRING", "/repo/src/multi_file.c: multi_file_access, multi_file_return", "/repo/src/string_builder.c"]}
{"id": "C93", "title": "Objects of a key file own their memory", "statement": "Any program that creates, copies, moves, assigns and destroys dro::KeyFile::ParseConfig, dro::Keywords, dro::KeywordSlice, dro::Keyword and dro::Card objects, parses key files and calls methods of the cards behaves as if the objects were values: a copied Card has its own text and position and can be used after the Keywords has been destroyed; a Card obtained with operator[] shows (and changes) the card of the parse, together with all others of the same card, as long as the Keywords exists, wherever it has been moved to; indices that are out of range and names that do not exist throw and create nothing; no memory is used after it has been released or released twice; and when all objects have been destroyed everything that was allocated has been released.", "quantifier": "all programs of these operations, all files and file systems, all names, indices and value widths, and any memory allocated before", "why_tests_cant": "Leaks and dangling pointers do not change results in a test; the orders of copies, moves, assignments and destructions are unbounded.", "anchors": ["/repo/src/cpp/key.cpp: Card, Keyword, KeywordSlice, Keywords, KeyFile::ParseConfig, KeyFile::parse", "/repo/src/cpp/key.hpp", "/repo/src/python/pybind11_key.cpp: __getitem__", "/repo/src/key.c: key_file_free, card_parse_begin"]}
{"id": "C94", "title": "Paths of the file system on both platforms", "statement": "path_join_real and path_move_up_real treat '/' (and on Windows also '\\\\') as separators, runs of separators as one and trailing separators as absent: the components of a joined path are those of its two arguments, whatever separators are at the joint; moving up from an absolute path cuts off exactly its last component and reports that there is no parent exactly for the root; moving up from a path that begins with a component (a relative path or a path with a drive) cuts off its last component if there are several and reports that there is no parent if there is only one. On Linux both functions are those used for the paths inside a binout.", "quantifier": "all byte strings as paths, both platforms, any mixture, number and position of separators", "why_tests_cant": "There are infinitely many mixtures of separators, and the Windows branch cannot be run on the platform of the tests.", "anchors": ["/repo/src/path.c: path_move_up_real, path_join_real", "/repo/src/path.h: REAL_PATH_SEP, CHAR_IS_REAL_PATH_SEP"]}
{"id": "C95", "title": "Parsing key files with a callback in C++", "statement": "KeyFile::parse_with_callback calls the callback once for each keyword without cards (with std::nullopt) and once for each card of the parse, in order; a Card that the callback copies has its own text and position and can be used and destroyed after the parse like any other Card; errors of the parse throw after the last call and the warnings are given to the caller or released; an exception of the callback ends the parse at once and reaches the caller; no memory is used after it has been released or released twice, and when all objects have been destroyed everything that was allocated has been released.", "quantifier": "all programs that create, copy, move, assign and destroy the objects of a key file and parse any number of files with and without callbacks; all callbacks that decide from their earlier results what to call on their card, whether to keep copies and whether to throw; all files and file systems", "why_tests_cant": "The behaviours of callbacks, the orders of copies and destructions and the contents of files are unbounded; leaks and dangling pointers do not change the results of a test.", "anchors": ["/repo/src/cpp/key.cpp: KeyFile::parse_with_callback, Card", "/repo/src/cpp/key.hpp: KeyFile::Callback", "/repo/src/key.c: key_file_parse_with_callback"]}
{"id": "C96", "title": "Keywords of a key file in Python", "statement": "In Python, keywords[name] gives the keywords of that name and raises for a name that does not exist; len, indexing and for loops of a KeywordSlice and of a Keyword give exactly the keywords and the cards, each once and in order; a loop ends after the last element; an index that is negative, too large or no number raises.", "quantifier": "all lists of keywords that are sorted by name with any numbers of cards, all names, all arguments of an index", "why_tests_cant": "The lists, names and indices are unbounded; the first name of the list, the end of a loop and numbers that do not fit into size_t are easily missed.", "anchors": ["/repo/src/python/pybind11_key.cpp: Keywords, KeywordSlice, Keyword", "/repo/src/cpp/key.cpp: KeywordSlice::operator[], Keyword::operator[], Keywords::operator[]"]}
{"id": "C97", "title": "The error string of binout_read_timed tells the cause", "statement": "If binout_read_timed_<type> returns no data, the error string is about the given path and tells the cause: the binout is empty, the path has no components, the path is a folder, the path is a variable that is not timed, the variable does not exist, the variable has no values, a time step (the first bad one, by its number) has a different structure, or its data cannot be read. A variable is reported as not existing only if nothing exists under the path (or it is a variable of the root folder), and the other texts are given only in their cases.", "quantifier": "all sets of well-formed binout files, all absolute paths, all types; for the texts about time steps all binouts, also damaged ones", "why_tests_cant": "The texts depend on the place where the search fails, which depends on the whole directory and on all time steps; the paths and directories are unbounded.", "anchors": ["/repo/src/binout_read.c: _binout_search_timed, _binout_read_timed", "/repo/src/binout_defines.h: NEW_ERROR_STRING_F"]}
{"id": "C98", "title": "The profiler reports every section once with its total time", "statement": "In a build with profiling, if every section that is begun is also ended (in any nesting), then no begin or end uses an array that has been moved or released, no section is open at the end, and END_PROFILING writes a report with exactly one line for each sequence of names of nested sections that occurred. Its time is the sum of the times of these executions, each without the time that the profiler itself needed within it; a section that is executed directly within itself is part of the outer execution. If a section is begun and never ended, no report is ever written.", "quantifier": "all sequences of nested executions of sections with all names, all readings of the clock, with and without stacking", "why_tests_cant": "The arrays of sections are moved while pointers to their owners are held, and the own time of the profiler is handed from section to section; the nesting and the number of sections are unbounded.", "anchors": ["/repo/src/profiling.c: _BEGIN_PROFILE_SECTION, _END_PROFILE_SECTION, END_PROFILING, fprint_profiling_stack", "/repo/src/profiling.h: profiling_stack_t, profiling_execution_t", "/repo/src/binary_search.c: profiling_stack_binary_search_insert"]}
{"id": "C99", "title": "The lines of the profiling report are sorted by time", "statement": "Within every section of the report, and among the outermost sections, the lines are in the order of decreasing time; the column with the name always has 40 characters.", "quantifier": "all sequences of nested executions of sections with all names, all readings of the clock, with and without stacking", "why_tests_cant": "The order must hold for all times and all trees of sections; the quick sort works in place and calls itself for nested arrays.", "anchors": ["/repo/src/profiling.c: quick_sort_execution_times, partition_execution_times, fprint_profiling_stack, END_PROFILING"]}
{"id": "C100", "title": "Accessors of element states show the values of the right integration point", "statement": "get_mid/inner/outer_history_variables, get_add_ip_history_variables, get_add_ips, get_mean_history_variables of D3plotShell and D3plotThickShell, and get_history_average/min/max, get_integration_points, get_history_variables of D3plotBeam return arrays that consist of exactly the values the file holds for this integration point of this element (or of the means over all its points); an index that is not the index of an (additional) integration point is answered with an exception that names the index and the number of points, and nothing outside of the element is read.", "quantifier": "all databases whose control data is accepted, all states, all elements, all numbers of points and history variables, all indices", "why_tests_cant": "The positions depend on seven flags and sizes of the file; an index that is off by one reads the values of the neighbouring point or element, which a test with equal values does not notice.", "anchors": ["/repo/src/cpp/d3plot_state.cpp: D3plotShell, D3plotThickShell, D3plotBeam", "/repo/src/cpp/d3plot_state.hpp", "/repo/src/cpp/array.hpp: Array::operator[]"]}
{"id": "C101", "title": "Names of files found by a pattern on Windows", "statement": "On Windows binout_open with a pattern opens each file that the operating system reports for the pattern exactly once, in the reported order, under the name that consists of the folder part of the pattern (everything up to and including the last separator) followed by the reported name; without a folder part under the reported name itself. Building these names reads and writes only memory that belongs to them.", "quantifier": "all patterns, all sets of files the operating system reports, all lengths of names and folders", "why_tests_cant": "The new place of a name overlaps its old place depending on the lengths of the name and the folder, and memcpy may or may not survive this; tests use one folder.", "anchors": ["/repo/src/binout_glob.c: binout_glob (Windows)", "/repo/src/binout_glob.h"]}
{"id": "C102", "title": "An opened file stays the same file when the working directory changes", "statement": "The path that is used for every later access to a binout or d3plot file (each thread opens the file again by its path) is absolute and names the file that the path passed to the open function named at the time of the call; changing the working directory afterwards makes no difference.", "quantifier": "all paths, all working directories at the time of opening and at the time of each access, both platforms", "why_tests_cant": "Tests run with one working directory and one platform; the difference only shows if the directory changes between two accesses, or with unusual directories and drives.", "anchors": ["/repo/src/multi_file.c: multi_file_open", "/repo/src/path.c: path_is_abs, path_working_directory, path_join_real"]}
{"id": "C103", "title": "The text of a value shows every member with its label", "statement": "The text of an element, tensor, connectivity, vector or array (stream operators in C++, str in Python) consists of the documented labels, each with the value of the member of that name behind it, every member once and in a fixed order; arrays show all their elements in order with a comma between them and none behind the last, and different arrays of 8 bit numbers and different indices have different texts. It only uses values that were read from the file.", "quantifier": "all elements of all kinds, all values, all formats of floating point numbers without marks and blanks, all arrays of every length", "why_tests_cant": "A test compares the text of a few values; a swapped or repeated member, or a member that was never written, is only visible for values that differ in it, and lengths at the border of the loop for each size.", "anchors": ["/repo/src/cpp/d3plot.cpp: operator<<", "/repo/src/cpp/array.hpp: operator<< for Array", "/repo/src/cpp/vec.hpp: operator<<"]}
{"id": "C104", "title": "Locks exclude other threads on both platforms", "statement": "A lock that was created successfully is held by at most one thread at a time, as long as threads only unlock what they hold: sync_lock returns 0 when nobody holds it and waits otherwise, sync_trylock never waits and returns 0 or EBUSY depending on whether somebody holds it, sync_unlock returns 0 and is never lost: the next thread gets the lock. The event based implementation for Windows and the mutex of POSIX threads allow exactly the same sequences of calls and results.", "quantifier": "any number of threads and locks, all interleavings of any length, both platforms", "why_tests_cant": "Tests run a few interleavings on one platform.", "anchors": ["/repo/src/sync.c: sync_create, sync_lock, sync_trylock, sync_unlock"]}
{"id": "C105", "title": "A d3plot database that is written as the format prescribes is read back", "statement": "If a program writes a database as the format prescribes - control words, geometry, ids of nodes, elements and parts, end markers, and any number of states in any number of further files, each file closed with the end marker, all numbers as words of four or eight bytes - then d3plot_open succeeds and the library gives back what has been written: the title, the run time, nodes and material of every solid, thick shell, beam and shell (beginning with 0), all ids, the number of states, and for the state with each index the time, the coordinates, velocities and accelerations that are written, and the values of all elements: stresses, plastic strains, history variables, forces, thickness, strains and integration points where they were put, zeros where the control words say that nothing is written. The part of a material consists of exactly the elements that are written with this material, in the order in which they are written, each with its id; its node ids ascend and are exactly the ids of the nodes that these elements name; a material that no element has has no part.", "quantifier": "all databases with ordinary elements: any numbers of nodes, elements, parts, variables, states and files, any values, both sizes of words, every combination of output flags that the control words can express", "why_tests_cant": "Sample files show one combination of flags, counts and files each; that writing and reading are inverse needs all of them.", "anchors": ["/repo/src/d3plot.c: d3plot_open, d3plot_read_title, d3plot_read_run_time, d3plot_read_node_ids, d3plot_read_solid_elements, d3plot_read_time, d3plot_read_node_coordinates, d3plot_read_solids_state, d3plot_read_thick_shells_state, d3plot_read_beams_state, d3plot_read_shells_state, d3plot_read_part, d3plot_read_part_by_id", "/repo/src/d3plot_data.c: _d3plot_read_geometry, _d3plot_read_user_identification_numbers", "/repo/src/d3plot_state.c: _d3plot_read_state_data", "/repo/src/d3_buffer.c: d3_buffer_open", "/repo/src/d3plot_part_nodes.c: d3plot_part_get_node_ids2"]}
{"id": "C106", "title": "A key file that is written as the format prescribes is read back", "statement": "If a program writes a key file - keyword lines with any blanks around the name, cards with the values in fields of fixed widths, comment lines anywhere, comments behind lines, lines that end with or without a carriage return, and maybe *END with anything behind it - then key_file_parse reports no error and no warning and gives exactly the keywords that were written with the text of all their cards in order, sorted by name; key_file_get with a name and a number finds the keyword with this name that was written as this number; going over a card with the widths of its fields, card_parse_int gives every integer that was written (card_parse_float32 and card_parse_float64 as well), the floating point functions the value of every decimal number, card_parse_string every word and the empty text for a blank field; and behind the last field card_parse_done is true.", "quantifier": "all key files without INCLUDE keywords: any number of keywords and cards, any names, values, widths, paddings, comments and line ends, anything behind *END", "why_tests_cant": "Sample files have one layout each; that reading is the inverse of writing needs every layout, name, value and order of the keywords.", "anchors": ["/repo/src/key.c: key_file_parse, key_file_parse_with_callback, key_file_get, card_parse_begin, card_parse_next_width, card_parse_done, card_parse_int_width, card_parse_float32_width, card_parse_float64_width, card_parse_string_width", "/repo/src/line.c: read_line", "/repo/src/binary_search.c: key_file_binary_search, key_file_binary_search_insert"]}
{"id": "C107", "title": "A binout that is written step by step is read back", "statement": "If a program writes its results to a set of binout files - for each of its sections one folder with constant data and one folder for every time step, in any order, spread over any number of files, each with its own sizes of the record fields - then binout_open reports no error; every variable with values is read with its type exactly as it was written; binout_get_num_timesteps gives the number of the time steps of every section that were written; and a variable that every time step of a section has with the same size is read by binout_read_timed as the values of all time steps in the order of their numbers, whatever the order in which they were written. binout_get_children shows below the root the names of the sections, below a section the names of its folders and below a folder the names of its variables, each once and in ascending order.", "quantifier": "all sets of up to 256 files, all sections, up to a million time steps, variables, types, values, sizes of record fields and orders of the folders", "why_tests_cant": "Sample files have one order of the folders and one split into files; that reading is the inverse of writing needs all of them.", "anchors": ["/repo/src/binout.c: binout_open, binout_get_num_timesteps, binout_get_children", "/repo/src/binout_read.c: binout_read_f32, binout_read_timed_f32", "/repo/src/binout_directory.c: binout_directory_insert_folder, binout_folder_insert_file, binout_directory_get_file"]}
{"id": "C108", "title": "The functions for double and for float return the same numbers", "statement": "Of a d3plot family with words of 4 or of 8 bytes, every function that reads times or data of nodes (one state or all states, coordinates, velocity, acceleration, time) and its version ending with _32 have the same outcome: both fail or both succeed, with the same number of values, and every value is the value of the file, converted exactly once if the type differs; no value is left out, none is uninitialised, and no memory outside the arrays is accessed. The double that a float becomes is exactly the same number.", "quantifier": "all families with either size of words, all states, numbers of nodes and states, all 2^32 bit patterns of a float", "why_tests_cant": "Sample files have one size of words and a few values; that the conversion loops cover every array exactly, and that the conversion is exact, needs all sizes and patterns.", "anchors": ["/repo/src/d3plot.c: d3plot_read_node_coordinates, d3plot_read_all_node_coordinates, d3plot_read_node_velocity, d3plot_read_node_acceleration, d3plot_read_time, d3plot_read_all_time and the same with _32, _d3plot_read_node_data, _d3plot_read_node_data_32"]}
