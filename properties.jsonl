{"id": "C01", "title": "Quoting round-trips exactly the 7-bit NUL-free strings", "statement": "try_unquoted(try_quoted(s)) terminates, has no undefined behaviour and returns s for every string whose characters are all in 1..127; for every other string (one containing NUL or, with signed char, any byte >= 128) it does not return s.", "quantifier": "every byte string s, of any length", "why_tests_cant": "a test samples strings; the claim covers all strings and the precise border of the working set", "anchors": ["flut/string_tools.cpp: encode_char, decode_char, quoted, needs_quotes, try_quoted, try_unquoted"]}
{"id": "C02", "title": "A quoted string is read back as one token", "statement": "A char_stream positioned at quoted(s) followed by a delimiter or the end of the buffer yields exactly s from get_token and leaves the stream after that quoted text and the delimiters following it.", "quantifier": "every 7-bit NUL-free s, every continuation of the buffer, every operator set and delimiter set not containing the quote", "why_tests_cant": "unbounded strings and continuations", "anchors": ["flut/char_stream.cpp: char_stream::get_token", "flut/string_tools.cpp: quoted, decode_char"]}
{"id": "C03", "title": "trim_str and trim_right_str remove exactly the outer trim characters", "statement": "trim_str(s,t) is the part of s left after removing the longest prefix and the longest suffix made of characters of t (empty if nothing else remains); trim_right_str removes only the suffix. Neither ever throws.", "quantifier": "every string and every trim set", "why_tests_cant": "all strings, including all-space and empty ones", "anchors": ["flut/string_tools.cpp: trim_str, trim_right_str"]}
{"id": "C04", "title": "split_str returns the maximal separator-free pieces in order", "statement": "split_str(s,seps) terminates and returns, in order, precisely the non-empty maximal runs of characters of s that are not separators.", "quantifier": "every string and every separator set", "why_tests_cant": "all strings and separator sets; termination", "anchors": ["flut/string_tools.cpp: split_str"]}
{"id": "C05", "title": "left_of_str / right_of_str / make_key_value_str cut at the right separator", "statement": "left_of_str is the longest separator-free prefix; right_of_str is the longest separator-free suffix (both are s if there is no separator); make_key_value_str cuts at the first separator and trims both halves, or returns (s,\"\") if there is none; none of them throws.", "quantifier": "every string and separator set", "why_tests_cant": "all strings", "anchors": ["flut/string_tools.cpp: left_of_str, right_of_str, make_key_value_str"]}
{"id": "C06", "title": "str_begins_with / str_ends_with decide prefix and suffix", "statement": "str_begins_with(s,t) is true iff t is a prefix of s; str_ends_with(s,t) is true iff t is a suffix of s.", "quantifier": "every pair of strings", "why_tests_cant": "all pairs; the suffix half is false of the code when t also occurs earlier in s", "anchors": ["flut/string_tools.hpp: str_begins_with, str_ends_with"]}
{"id": "C07", "title": "left_str / right_str count characters", "statement": "For n >= 0 left_str(s,n) is the first min(n,|s|) characters and right_str(s,n) the last n characters (std::out_of_range if n > |s|). For n < 0 left_str drops the last |n| characters and right_str drops the first |n| (the opposite of the header comment), right_str throwing if |n| > |s|.", "quantifier": "every string and every int n", "why_tests_cant": "all strings and counts including negative and too-large ones", "anchors": ["flut/string_tools.hpp: left_str, right_str, mid_str"]}
{"id": "C08", "title": "File-name helpers split a name without losing characters", "statement": "If the last component has a non-empty extension then get_filename_without_ext(f)+'.'+get_filename_ext(f) = f, else without_ext(f)=f; the extension contains no dot or separator. If f has a separator, get_filename_folder(f)+get_filename_without_folder(f)=f and the latter has no separator; the claim for names with no separator is false of the code (folder returns the whole name).", "quantifier": "every string", "why_tests_cant": "all file names", "anchors": ["flut/string_tools.cpp: get_filename_ext, get_filename_without_ext, get_filename_folder, get_filename_without_folder"]}
{"id": "C09", "title": "path join appends one component", "statement": "For every path p and every q without separators: (p/q) ends in q; if p is non-empty and has no trailing separator then (p/q).parent_path() = p and (p/q).filename() = q; if p is empty p/q = q; if p ends in a separator nothing is inserted. operator/= agrees with operator/.", "quantifier": "every pair of paths", "why_tests_cant": "all paths", "anchors": ["flut/system/path.cpp: operator/, operator/=, has_filename, parent_path, filename"]}
{"id": "C10", "title": "parent_path / filename / remove_filename / replace_filename decompose a path", "statement": "If p has a separator then p = parent_path + separator + filename, filename has no separator, and parent_path()/filename() equals p up to the kind of separator unless the parent is empty or itself ends in a separator. remove_filename equals parent_path. make_preferred is idempotent, preserves length, and leaves no backslash.", "quantifier": "every path", "why_tests_cant": "all paths, root and separator-free ones included (where the code loses the root or the name)", "anchors": ["flut/system/path.cpp: parent_path, filename, remove_filename, replace_filename, make_preferred, has_parent_path"]}
{"id": "C11", "title": "extension / stem / replace_extension act on the last component", "statement": "For a path with a dot in its last component: stem + '.' + extension = last component; after replace_extension(e) with non-empty dot-free e, extension() = e and parent and stem are unchanged. For a path whose only dots are in folder names replace_extension leaves the folder alone (false of the code).", "quantifier": "every path and every extension", "why_tests_cant": "all paths; the failure needs a dotted folder", "anchors": ["flut/system/path.cpp: replace_extension, extension, stem"]}
{"id": "C12", "title": "tidy_identifier strips qualifiers and underscores", "statement": "tidy_identifier(id) is a contiguous part of id, never ends in '_', and contains no ':' ; unless id has the form m_... without ':' it does not start with '_' either.", "quantifier": "every string", "why_tests_cant": "all identifiers", "anchors": ["flut/system_tools.cpp: tidy_identifier"]}
{"id": "C13", "title": "char_stream reads only its own buffer and its flags are sticky", "statement": "Every sequence of get_token, get_line, string/int extraction, peekc, and getc calls made while good() reads only bytes of the buffer and its terminator, only moves forward, and never clears eof or fail once set.", "quantifier": "every buffer, delimiter set and call sequence", "why_tests_cant": "memory safety over all inputs and histories", "anchors": ["flut/char_stream.hpp: char_stream", "flut/char_stream.cpp: char_stream"]}
{"id": "C14", "title": "get_token terminates except on an open quote that ends in a lone backslash", "statement": "get_token terminates on every stream except when, inside a quoted part, a backslash is the very last byte of the buffer; in that case it never returns.", "quantifier": "every buffer, every operator and delimiter set, every set of double and single quotes as quote characters", "why_tests_cant": "non-termination cannot be tested; termination ranges over all inputs", "anchors": ["flut/char_stream.cpp: char_stream::get_token", "flut/string_tools.cpp: decode_char"]}
{"id": "C15", "title": "Reading whitespace separated integers back gives the same integers", "statement": "str_to_vec<long>(join(' ', xs), no_index) = xs for in-range integers; with max_values m it is the first m of them; scan_str returns the number of variables read while more input remained (one less than the number read when the text is used up).", "quantifier": "every list of in-range integers and every m", "why_tests_cant": "unbounded lists", "anchors": ["flut/string_tools.hpp: str_to_vec, scan_str, scan_str_impl", "flut/char_stream.hpp: char_stream::operator>>"]}
{"id": "C16", "title": "parse_prop always returns or throws", "statement": "parse_prop on every 7-bit C string that does not end in a backslash terminates with a prop_node or a flut::exception and has no undefined behaviour; on a text that ends in a backslash inside an open quote it hangs.", "quantifier": "every 7-bit C string", "why_tests_cant": "totality over all inputs", "anchors": ["flut/prop_node_tools.cpp: parse_prop, read_prop_node, get_prop_token, is_valid_prop_label"]}
{"id": "C17", "title": "save_prop then load_prop gives the same tree (readable form)", "statement": "For every prop_node tree whose nodes have a value or children but not both, whose keys start with a letter and whose keys and values are 7-bit, trimmed, and contain none of = { } % ; ' unless they also contain a character that forces quoting, the text written by save_prop(readable) parses back to an equal tree.", "quantifier": "every such tree of any depth and width", "why_tests_cant": "unbounded trees and strings; outside the side conditions the code loses data", "anchors": ["flut/prop_node_tools.cpp: write_prop_none, save_prop, parse_prop, read_prop_node"]}
{"id": "C18", "title": "A comment hides exactly the rest of its line", "statement": "In prop text a '%' token hides the characters up to the end of that line and nothing else. (False of the code when nothing follows the '%' on its line: the next line is swallowed.)", "quantifier": "every comment text and every continuation", "why_tests_cant": "all comment bodies", "anchors": ["flut/prop_node_tools.cpp: get_prop_token", "flut/char_stream.cpp: get_line, get_token"]}
{"id": "C19", "title": "save_prop then load_prop gives the same tree (compact form)", "statement": "The text written by save_prop(readable=false) parses back to an equal tree. (False of the code already for two siblings.)", "quantifier": "every tree", "why_tests_cant": "the claim is about all trees; the witness refutes it", "anchors": ["flut/prop_node_tools.cpp: write_prop_none, parse_prop"]}
{"id": "C20", "title": "prop_node set/get behave like an ordered map on first keys", "statement": "After pn.set(k,v): get_child(k) has the value and children of v; every other key's first child is unchanged; the order and number of keys changes only by appending k when it was absent. has_key, get(k,default), try_get_child, operator[] agree with find on the first matching key, and get_child throws exactly when the key is absent.", "quantifier": "every node, key and value", "why_tests_cant": "all trees and keys, duplicates included", "anchors": ["flut/prop_node.hpp: set, get, get_child, try_get_child, has_key, operator[], push_back, find"]}
{"id": "C21", "title": "Delimited paths address nested children", "statement": "After set_delimited(path,v), get_delimited(path) is v, and get_delimited of every path that is not a prefix or extension of it is unchanged.", "quantifier": "every node, every key string with any number of delimiters", "why_tests_cant": "unbounded depth", "anchors": ["flut/prop_node.hpp: set_delimited, get_delimited, try_get_child_delimited"]}
{"id": "C22", "title": "push_back keeps duplicates and order; select returns exactly the matching children", "statement": "push_back(k,v) appends one child and changes no other; iterating select(k) (or select_pattern) visits exactly the children whose key equals k (matches), in order, once each, and terminates.", "quantifier": "every node and key", "why_tests_cant": "all child lists", "anchors": ["flut/prop_node.hpp: push_back, select, select_pattern", "flut/container_tools.hpp: view_if"]}
{"id": "C23", "title": "prop_node equality is structural", "statement": "operator== is true iff the two trees have the same value, keys and children in the same order, recursively, regardless of the accessed flags; hence it is an equivalence relation and operator!= its negation.", "quantifier": "every pair of trees", "why_tests_cant": "unbounded trees", "anchors": ["flut/prop_node.cpp: operator==", "flut/prop_node.hpp: operator!="]}
{"id": "C24", "title": "Access tracking counts exactly the untouched nodes", "statement": "count_unaccessed is the number of nodes of the tree whose flag is not set; after clear_accessed_recursively it equals the number of nodes; reads never clear a flag, and get<T>(k) marks the node and that child.", "quantifier": "every tree and read history", "why_tests_cant": "all trees and histories", "anchors": ["flut/prop_node.hpp: access, is_accessed, count_unaccessed, clear_accessed_recursively"]}
{"id": "C25", "title": "merge_prop_nodes merges key-wise", "statement": "merge_prop_nodes(pn,other,false) keeps every existing first child of pn and adds the missing keys of other; with overwrite=true a key present in other takes other's last value; keys of pn keep their order and come first.", "quantifier": "every pair of nodes, duplicates included", "why_tests_cant": "all trees", "anchors": ["flut/prop_node_tools.cpp: merge_prop_nodes"]}
{"id": "C26", "title": "Include resolution terminates and leaves no include directive", "statement": "For every file system (cyclic includes too) load_file_with_include terminates; if it returns, the result contains no node whose key is the include directive, at any depth; include chains of depth 100 or more throw.", "quantifier": "every file system content and file name", "why_tests_cant": "cycles and unbounded trees", "anchors": ["flut/prop_node_tools.cpp: load_file_with_include, resolve_include_files"]}
{"id": "C27", "title": "Structured values round-trip through prop_node", "statement": "prop_node_cast<vector<T>>, <vec3>, <quat>, <transform>: from(to(x)) = x whenever it holds for the element type.", "quantifier": "every vector length and every element value", "why_tests_cant": "unbounded lengths", "anchors": ["flut/prop_node.hpp: prop_node_cast", "flut/math/vec3_type.hpp: vec3_(prop_node), to_prop_node", "flut/math/quat_type.hpp", "flut/math/transform.hpp"]}
{"id": "C28", "title": "get_any and get with default pick the first available key", "statement": "get_any(keys,def) returns the value of the first listed key that exists, def if none does; get_any(keys) throws exactly if none exists.", "quantifier": "every node and key list", "why_tests_cant": "all key lists", "anchors": ["flut/prop_node.hpp: get, get_any"]}
{"id": "C29", "title": "save_ini then load_ini gives the same document", "statement": "For documents of top-level key/value pairs followed by groups of key/value pairs, with distinct trimmed non-empty keys, trimmed values, and no comment or bracket confusion, load_ini(save_ini(pn)) equals pn. A comment line hides exactly itself (false of the code: the following line is lost too).", "quantifier": "every such document", "why_tests_cant": "unbounded documents", "anchors": ["flut/prop_node_tools.cpp: load_ini, save_ini"]}
{"id": "C30", "title": "flat_map behaves as a map", "statement": "Starting empty, after any sequence of operator[] assignments, erase by key lookup, and clear: keys are unique, find/at/has_key/count agree with the abstract map of last writes, at throws exactly on absent keys, and iteration is in first-insertion order.", "quantifier": "every operation history", "why_tests_cant": "all histories", "anchors": ["flut/flat_map.hpp: flat_map"]}
{"id": "C31", "title": "factory creates the most recently registered class", "statement": "After any registration history, create(name,args) runs the last creator registered under name; it throws exactly when none was registered, try_create returns null exactly then, has_type and empty agree.", "quantifier": "every registration history", "why_tests_cant": "all histories", "anchors": ["flut/factory.hpp: factory"]}
{"id": "C32", "title": "sorted_vector is always sorted", "statement": "After any sequence of insert, erase and clear the elements are in non-decreasing order, the content is the multiset of what was inserted and not erased, and equal elements keep insertion order.", "quantifier": "every history, every strict weak order", "why_tests_cant": "all histories", "anchors": ["flut/sorted_vector.hpp: insert"]}
{"id": "C33", "title": "circular_deque behaves as a double-ended queue", "statement": "After any history of push_back, push_front, pop_back, pop_front, clear the elements seen by operator[], front, back and iteration are those of the abstract deque. False of the code for push_back on a full deque whose front is not at index 0 (out-of-range insert) and for const back().", "quantifier": "every history and initial capacity", "why_tests_cant": "all histories; the failures need a wrapped full buffer", "anchors": ["flut/circular_deque.hpp: circular_deque"]}
{"id": "C34", "title": "circular_frame_buffer retains the last N frames", "statement": "With N frames of capacity, after any history of add_frame and writes to the newest frame, operator()(f,c) and reverse(k,c) return the last value written to that frame for each of the last N frames. at() accepts exactly these frames (false of the code while fewer than N frames were added).", "quantifier": "every history", "why_tests_cant": "all histories and wrap-arounds", "anchors": ["flut/buffer/circular_frame_buffer.hpp: circular_frame_buffer"]}
{"id": "C35", "title": "data_header finds a label at the index that carries it", "statement": "After any history of add / append-and-set (as storage and table use it) / clear, find(l) = i implies label i is l, and every added label is found. False of the code for set on another index, for relabelling, and for headers built from a label list.", "quantifier": "every history", "why_tests_cant": "all histories", "anchors": ["flut/buffer/data_header.hpp: data_header"]}
{"id": "C36", "title": "storage is a frames x channels matrix that growth never corrupts", "statement": "For any history of add_channel, add_frame, resize and cell writes, every cell holds the last value written to it or the fill value given when the cell was created; sizes are as requested; shrinking throws; at() throws exactly out of range.", "quantifier": "every history and size", "why_tests_cant": "all histories; reshaping bugs show at particular sizes", "anchors": ["flut/storage.hpp: storage"]}
{"id": "C37", "title": "table is a rows x columns matrix that growth never corrupts", "statement": "add_row and add_column keep all existing cells and add cells with the default; resize that adds rows (with columns) writes out of bounds (undefined behaviour); add_column ignores its default_value argument.", "quantifier": "every table and label", "why_tests_cant": "all sizes; in-place reshaping order matters", "anchors": ["flut/table.hpp: table"]}
{"id": "C38", "title": "write_debug records every sample of every label in order", "statement": "After any sequence of write_debug(label,value) (no value equal to the sentinel), the non-sentinel entries of each label's column are exactly the values written to that label, in order.", "quantifier": "every write sequence", "why_tests_cant": "all interleavings of labels", "anchors": ["flut/system/debug_storage.cpp: auto_storage_writer::write"]}
{"id": "C39", "title": "dictionary maps elements to names and back", "statement": "dictionary(e) and dictionary(name) return the first matching entry and throw exactly if there is none; the default form returns the default exactly then; on a dictionary with distinct names and elements they are inverse.", "quantifier": "every entry list", "why_tests_cant": "all tables", "anchors": ["flut/dictionary.hpp: dictionary, lookup"]}
{"id": "C40", "title": "memoize returns the function's values and calls it once per argument", "statement": "For a pure function f, after any call sequence every result is f(args), and f was invoked exactly once for each distinct argument tuple.", "quantifier": "every call sequence", "why_tests_cant": "all histories", "anchors": ["flut/memoize.hpp: memoize"]}
{"id": "C41", "title": "flag_set holds independent bits", "statement": "For indices below the storage width: get(i) after set(i,b) is b, set/clear of i changes no other flag, any() is true iff some flag is set, initializer-list construction sets exactly the listed flags, and operation order on different flags is irrelevant.", "quantifier": "every history of operations, every index", "why_tests_cant": "all bit patterns and histories", "anchors": ["flut/flag_set.hpp: flag_set"]}
{"id": "C42", "title": "Container statistics match their definitions", "statement": "median is the middle order statistic (mean of the two middle ones for even size) and throws on empty; find_index is the first index or no_index; sort_indices is a permutation that sorts; top_average(vec,count) is the mean of the count smallest elements when 0 < count <= size (zeros are averaged in when count > size).", "quantifier": "every vector", "why_tests_cant": "all vectors", "anchors": ["flut/container_tools.hpp: median, top_average, sort_indices, find_index, back_index"]}
{"id": "C43", "title": "Log messages reach exactly the sinks whose level admits them", "statement": "After any history of creating and destroying sinks, set_log_level and set_global_log_level, message(l,...) delivers the text once to each registered sink with level <= l, in registration order, and to no other; no sink is registered twice.", "quantifier": "every history", "why_tests_cant": "all histories; the cached global level could go stale", "anchors": ["flut/system/log.cpp: add_sink, remove_sink, set_global_log_level, get_global_log_level, test_log_level, log_string", "flut/system/log_sink.hpp: sink"]}
{"id": "C44", "title": "The profiler attributes time to a consistent call tree", "statement": "For every properly nested history of start_section/end_section with a non-decreasing clock: sections form a tree (parent id smaller than own id, one section per (parent,name)), the current section after a balanced history is the one before it, a section's total time is the sum of the durations of its invocations, and exclusive time is never negative for closed sections. end_section without a matching start is undefined behaviour.", "quantifier": "every nested history and clock", "why_tests_cant": "all histories", "anchors": ["flut/system/profiler.cpp: start_section, end_section, acquire_section, find_section, exclusive_time, total_overhead"]}
{"id": "C45", "title": "stopwatch loses no time", "statement": "For any sequence of add_measure calls the reported measures plus the internal measure add up to the time between the first epoch and the last measurement, and each name's entry is the sum of its intervals, names appearing once in first-use order.", "quantifier": "every sequence of names and clock readings", "why_tests_cant": "all histories", "anchors": ["flut/stopwatch.cpp: add_measure, get_report"]}
{"id": "C46", "title": "hash and hash_constexpr are the same function, FNV-1a on 7-bit strings", "statement": "hash(s) = hash_constexpr(s) = \"s\"_hash for every C string; both equal the published 64-bit FNV-1a on 7-bit strings (and not on others, because of sign extension); hashing is incremental over concatenation.", "quantifier": "every C string", "why_tests_cant": "all strings", "anchors": ["flut/hash.hpp: hash, hash_constexpr"]}
{"id": "C47", "title": "A version string reads back as the same version", "statement": "version(v.to_str()) = v. True for non-negative components with build > 0 and postfix empty or a single word; with build = 0 the build field is left indeterminate or the postfix is lost.", "quantifier": "every version", "why_tests_cant": "all numbers", "anchors": ["flut/system/version.hpp: version"]}
{"id": "C48", "title": "test_framework counts every test", "statement": "After any history of test() calls since construction: num_tests = num_passed + num_failed, each counts its outcomes, and report() returns -1 iff some test failed. reset() is expected to zero the counts (false of the code: it copies num_failed).", "quantifier": "every history", "why_tests_cant": "all histories", "anchors": ["flut/system/test_framework.cpp: test, reset, report"]}
{"id": "C49", "title": "Integers survive conversion to text and back", "statement": "from_str<T>(to_str(v)) = v for every value of int, long, long long, unsigned long, unsigned long long; stol-family conversions throw exactly on missing digits or out-of-range values; string_is<int> is true of every string.", "quantifier": "every integer value", "why_tests_cant": "all 2^64 values", "anchors": ["flut/system/string_cast.hpp: string_cast, string_is"]}
{"id": "C50", "title": "create_unique_folder returns a fresh folder", "statement": "If it returns, the returned folder did not exist before and exists afterwards, its name is the requested one or that plus ' (i)' with the least possible i, and no existing folder is removed; otherwise it throws after max_attempts names.", "quantifier": "every set of existing folders", "why_tests_cant": "all directory states", "anchors": ["flut/filesystem.cpp: create_unique_folder, create_directories"]}
{"id": "C51", "title": "copy_file copies or reports failure", "statement": "If copy_file returns true the destination has the source's content and other files are unchanged; without overwrite an existing destination is untouched. If it returns false nothing changed (false of the code: a missing source truncates the destination).", "quantifier": "every file system", "why_tests_cant": "all file states", "anchors": ["flut/filesystem.cpp: copy_file, file_exists, load_string"]}
{"id": "C52", "title": "load_string and load_prop report missing files through error_code or by throwing", "statement": "With an error_code argument a missing file yields an empty result and a non-zero code; without one it throws; an existing file yields its exact content and leaves the code untouched.", "quantifier": "every file system and file name", "why_tests_cant": "all file states", "anchors": ["flut/filesystem.cpp: load_string", "flut/system/error_code.hpp: try_set_error", "flut/prop_node_tools.cpp: load_prop"]}
{"id": "C53", "title": "is_power_of_two / is_even / is_odd decide what they say", "statement": "For every unsigned width and value: is_power_of_two(v) iff v = 2^k for some k; is_even(v) iff 2 divides v; is_odd is its negation, also for negative two's complement values.", "quantifier": "every value of every width", "why_tests_cant": "all values", "anchors": ["flut/math/math.hpp: is_power_of_two, is_even, is_odd"]}
{"id": "C54", "title": "clamp and bounds agree", "statement": "For min <= max, clamped(v) lies in [min,max], equals v iff v is inside, is monotone and idempotent, and is the nearest point of the interval; bounds::get_violation(v) = v - clamped(v); is_within iff the violation is zero; negating bounds mirrors them.", "quantifier": "every linearly ordered value triple", "why_tests_cant": "all values", "anchors": ["flut/math/math.hpp: clamp, clamped", "flut/math/bounds.hpp: bounds"]}
{"id": "C55", "title": "soft_clamp stays strictly inside, is the identity in the middle and is monotone", "statement": "For min < max and 0 < boundary <= 1/2 (exact arithmetic) soft_clamped(v) lies strictly between min and max, equals v when v is at least boundary*(max-min) from both ends, and is strictly increasing in v.", "quantifier": "every real v and bounds", "why_tests_cant": "continuum of values", "anchors": ["flut/math/math.hpp: soft_clamp, limit_transfer"]}
{"id": "C56", "title": "wrap maps a value into the range modulo its width", "statement": "For lower < upper (exact arithmetic) wrapped(v) is in [lower,upper] and differs from v by an integer multiple of (upper-lower); it is in [lower,upper) for v >= lower; equals upper (not lower) when v < lower is a whole number of widths below.", "quantifier": "every real v and range", "why_tests_cant": "continuum; edge at multiples of the width", "anchors": ["flut/math/math.hpp: wrap, wrapped"]}
{"id": "C57", "title": "square_wave has period 2", "statement": "square_wave(v+2) = square_wave(v) for v >= 0; it is 1 on [0,1) and -1 on [1,2). Periodicity over all reals is false of the code (negative arguments).", "quantifier": "every real v", "why_tests_cant": "continuum", "anchors": ["flut/math/math.hpp: square_wave"]}
{"id": "C58", "title": "Unit quaternions act as rotations", "statement": "For quaternions over exact reals: multiplication is associative with the identity, norms multiply; for unit q, q*v preserves dot products, lengths, and cross products; (q1*q2)*v = q1*(q2*v); the conjugate -q inverts the action.", "quantifier": "every real quaternion and vector", "why_tests_cant": "continuum", "anchors": ["flut/math/quat.hpp: operator*, operator-, length", "flut/math/vec3.hpp"]}
{"id": "C59", "title": "Transforms form a group and inv_transform undoes transform", "statement": "For transforms with unit rotation: identity is neutral, composition is associative and acts as composition on points, inverse() is a two-sided inverse, and inv_transform(transform(x)) = x for points, rotations and transforms.", "quantifier": "every transform with unit quaternion", "why_tests_cant": "continuum", "anchors": ["flut/math/transform.hpp: transform_"]}
{"id": "C60", "title": "quat_from_axes is the rotation with those axes", "statement": "For orthonormal right-handed axes x,y,z, q = quat_from_axes(x,y,z) is a unit quaternion and maps unit_x,unit_y,unit_z to x,y,z, in every branch of the code; no branch takes the root of a negative number or divides by zero.", "quantifier": "every right-handed orthonormal frame", "why_tests_cant": "continuum, four branches", "anchors": ["flut/math/quat.hpp: quat_from_axes", "flut/math/mat33.hpp: mat33_from_axes"]}
{"id": "C61", "title": "Axis-angle and Euler constructors give unit rotations", "statement": "quat_from_axis_angle(axis,a) with a unit axis is a unit quaternion fixing the axis and composing additively in the angle; quat_from_euler is a unit quaternion equal to the product of the three elementary rotations in the named order.", "quantifier": "every axis, angle and order", "why_tests_cant": "continuum", "anchors": ["flut/math/quat.hpp: quat_from_axis_angle, quat_from_euler, axis_angle_from_quat, rotation_vector_from_quat"]}
{"id": "C62", "title": "quat_from_directions rotates source onto target", "statement": "For non-parallel non-zero source and target the result is a unit quaternion that maps the normalized source to the normalized target; for opposite directions it does so only when the source is perpendicular to the x axis (false of the code otherwise).", "quantifier": "every pair of directions", "why_tests_cant": "continuum; special cases", "anchors": ["flut/math/quat.hpp: quat_from_directions"]}
{"id": "C63", "title": "bounding_box is the least box containing the added points", "statement": "After adding any non-empty sequence of points and boxes to an empty bounding_box, it contains all of them and is contained in every box that does; the order of additions does not matter.", "quantifier": "every sequence of points and boxes", "why_tests_cant": "all sequences", "anchors": ["flut/math/bounding_box.hpp: bounding_box_", "flut/math/math.hpp: set_if_smaller, set_if_bigger"]}
{"id": "C64", "title": "average accumulates the weighted mean", "statement": "After any sequence of add(value,w) with non-negative weights, get() is the weighted mean (0 if the total weight is 0), lies between the least and greatest value, and reset returns to the initial state.", "quantifier": "every sequence", "why_tests_cant": "all sequences", "anchors": ["flut/math/average.hpp: average_", "flut/math/delta.hpp: delta"]}
{"id": "C65", "title": "Polynomials evaluate to their defining sum", "statement": "polynomial(v) = sum of coeff[i]*v^i for any degree; for linear functions with non-zero slope f(intersect_y(f,y)) = y.", "quantifier": "every degree, coefficient list and argument", "why_tests_cant": "all degrees", "anchors": ["flut/math/polynomial.hpp: polynomial, intersect_y"]}
{"id": "C66", "title": "linear_regression is the least-squares line", "statement": "For any points with at least two distinct x, the returned line minimises the sum of squared residuals; points on a line are recovered exactly; the fixed-step overload gives the same line as the general one on x_begin + i*x_step.", "quantifier": "every point set", "why_tests_cant": "all sizes and values", "anchors": ["flut/math/linear_regression.hpp: linear_regression"]}
{"id": "C67", "title": "interpolated_value is piecewise linear and never divides by zero", "statement": "On key-sorted samples: at a sample key the (last) sample with this key is returned; before the first / after the last key the first / last value; in between the value is the convex combination of the two neighbours with weights from the key; the denominator is never zero even with duplicate keys. The index form agrees with this on keys 0,1,2,... for keys below 2^64-1", "quantifier": "every non-empty sorted sample list and key", "why_tests_cant": "all sample lists", "anchors": ["flut/buffer/interpolation.hpp: interpolated_value", "flut/buffer/buffer_access.hpp: upper_bound"]}
{"id": "C68", "title": "iir_filter computes the difference equation", "statement": "For any coefficients and input history from the initial state, the n-th output is b0*x[n] + sum_i (b[i]*x[n-1-i] + a[i]*y[n-1-i]) with zero history; the filter is linear and time-invariant; the Butterworth coefficients have unit DC gain.", "quantifier": "every order, coefficients and input history", "why_tests_cant": "all histories", "anchors": ["flut/filter.hpp: iir_filter, make_lowpass_butterworth_2nd_order"]}
{"id": "C69", "title": "irange iterates exactly the integers of the range", "statement": "Iterating irange(b,e) with b <= e visits b,...,e-1 once each; irange_step(b,e,s) visits b,b+s,... below e and terminates iff s divides e-b with a non-negative quotient (otherwise it never meets its end).", "quantifier": "all integers b,e,s", "why_tests_cant": "termination for all values", "anchors": ["flut/math/irange.hpp: irange, irange_step"]}
{"id": "C70", "title": "optional reports presence faithfully", "statement": "A default-constructed optional is empty; assigning any non-sentinel value makes it present with that value. For integral types exactly the sentinel value reads as empty.", "quantifier": "every value", "why_tests_cant": "all values", "anchors": ["flut/math/optional.hpp: optional"]}
{"id": "C71", "title": "regular_piecewise_linear_function interpolates its nodes", "statement": "At every grid point x_min + i*step the result equals fn there; inside an interval it is the linear interpolation of its ends, so it reproduces affine functions everywhere; table accesses stay in range for every x.", "quantifier": "every function, grid and x", "why_tests_cant": "continuum", "anchors": ["flut/math/regular_piecewise_linear_function.hpp"]}
{"id": "C72", "title": "Delayers keep convex combinations of past samples", "statement": "After N samples have been stored, a constant input gives that constant; the output is always a convex combination of stored values while 0 <= time <= window. The initial value is expected before that (false of the code: only one slot is initialised).", "quantifier": "every sample history", "why_tests_cant": "all histories", "anchors": ["flut/math/delayer.hpp: delayer, smooth_delayer"]}
{"id": "C73", "title": "vec4 arithmetic is componentwise", "statement": "All vec4 operations act on x,y,z,w. False of the code: negation, scaling, division and -= leave w unchanged.", "quantifier": "every vector", "why_tests_cant": "all values", "anchors": ["flut/math/vec4.hpp"]}
{"id": "C74", "title": "Channel means and covariance are those of the data", "statement": "compute_channel_means returns each channel's mean; compute_covariance is symmetric with non-negative diagonal and equals E[xy]-E[x]E[y].", "quantifier": "every storage with at least one frame", "why_tests_cant": "all sizes", "anchors": ["flut/buffer/data_algorithms.hpp"]}
{"id": "C75", "title": "pattern_matcher accepts exactly the union of its patterns", "statement": "pattern_matcher(p)(str) is true iff str matches one of the non-empty ';'-separated parts of p, for any underlying glob matcher.", "quantifier": "every pattern list and string", "why_tests_cant": "all strings", "anchors": ["flut/pattern_matcher.hpp: pattern_matcher"]}
{"id": "C76", "title": "deg/rad conversions are inverse", "statement": "rad_to_deg(deg_to_rad(x)) = x and vice versa in exact arithmetic, angles of either unit compare and add consistently after conversion.", "quantifier": "every real value", "why_tests_cant": "continuum", "anchors": ["flut/math/math.hpp: rad_to_deg, deg_to_rad", "flut/math/angle.hpp: angle_"]}
{"id": "C77", "title": "Euler angles read from a quaternion are those it was made from", "statement": "euler_from_quat(quat_from_euler(x,y,z,order)) is (x,y,z) when the angles are within a quarter turn. False of the code in every order when two angles are non-zero; true for a rotation about a single axis by at most a right angle, beyond which another angle is read as half a turn.", "quantifier": "every triple of angles and every order", "why_tests_cant": "continuum, six orders", "anchors": ["flut/math/quat.hpp: euler_from_quat, pitch, yaw, roll, quat_from_euler"]}
{"id": "C78", "title": "save_xml followed by load_xml gives back the same tree", "statement": "Saving a property tree with one root element as XML and loading the file gives the same tree, in which every key, value and order of children is preserved, whatever characters the values contain (markup characters, quotes, ampersands, line breaks, blanks around text).", "quantifier": "all property trees of any depth and width with a single root, all values, all file systems in which the file can be written and read", "why_tests_cant": "a test saves a few trees; the claim is about every nesting and every byte in a value, in particular those that are markup in XML", "anchors": ["flut/prop_node_tools.cpp: save_xml, load_xml, set_rapid_xml_node, get_rapid_xml_node", "contrib/rapidxml-1.13/rapidxml_print.hpp", "contrib/rapidxml-1.13/rapidxml.hpp"]}
{"id": "C79", "title": "An XML document loads as the tree it describes", "statement": "Every XML document loads as the tree it describes: attributes become children with a value and come before the child elements, text becomes the value with the five named entities and numeric character references (as UTF-8) decoded, and comments, processing instructions, the document type and blanks between elements have no effect.", "quantifier": "all documents built from elements, attributes in either quotes, text with references, comments, instructions and a document type, nested to any depth, with any blanks where XML allows them, with or without a byte order mark", "why_tests_cant": "the documents and the ways of writing them are unbounded; a test parses a handful of files", "anchors": ["flut/prop_node_tools.cpp: load_xml, get_rapid_xml_node", "contrib/rapidxml-1.13/rapidxml.hpp: parse, parse_node, parse_element, parse_node_contents, parse_node_attributes, skip_and_expand_character_refs"]}
{"id": "C80", "title": "Loading XML ends safely whatever the file contains", "statement": "Loading an XML file ends for every content of the file, either with a tree that has at most one root element or with an exception, and never reads outside the text. Given an error code it does not throw: it returns an empty tree and a non-zero code, or the loaded tree and an unchanged code.", "quantifier": "all byte sequences as file contents, all file systems, all paths, all error codes", "why_tests_cant": "malformed input has unlimited variety; fuzzing samples it, but does not exclude a hang or a read past the end", "anchors": ["flut/prop_node_tools.cpp: load_xml, load_file", "contrib/rapidxml-1.13/rapidxml.hpp"]}
{"id": "C81", "title": "Approximate equality is relative to the first value, reflexive and symmetric", "statement": "equals(a,b,e) holds exactly when b differs from a by at most the fraction e of |a|: it is reflexive, unaffected by scaling both values, means equality for e = 0, and equals(a,b,e) implies equals(b,a,e). The last part is false of the code; with the tolerance e/(1-e) it is true.", "quantifier": "all values and tolerances", "why_tests_cant": "continuum", "anchors": ["flut/math/math.hpp: equals"]}
{"id": "C82", "title": "Real numbers survive being written as text and read back", "statement": "from_str< double >( to_str( x ) ) is x, and likewise for float; every decimal number is read as the nearest value of the type. The first part is false of the code: to_str writes six decimals whatever set_to_str_precision says, so all values below half a millionth become zero; values come back within a millionth, and exactly when they have at most six decimals or are at least 2^33 (double) or 16 (float). What was read once does not change in further trips. Infinities and not-a-number survive.", "quantifier": "all finite values of both formats, infinities, all decimal texts", "why_tests_cant": "there are 2^64 doubles and unboundedly many texts; tests use a few round numbers, which do survive", "anchors": ["flut/system/string_cast.hpp: string_cast< float >, string_cast< double >", "flut/string_tools.hpp: to_str, from_str, set_to_str_precision", "flut/char_stream.hpp: operator>>( double& )"]}
{"id": "C83", "title": "Lengths, distances, normalisation and polar coordinates are Euclidean", "statement": "length is the Euclidean norm (zero only for the zero vector, scaling with factors, triangle inequality), distance is the length of the difference and a metric, normalize gives a vector or quaternion of length one in the same direction and leaves (near) zero ones alone, polar coordinates give back a vector of the given radius, and the component accessors agree with x, y, z.", "quantifier": "all vectors and quaternions of real numbers, all angles", "why_tests_cant": "continuous domains; tests compare a few vectors", "anchors": ["flut/math/vec3.hpp", "flut/math/vec3_type.hpp", "flut/math/quat.hpp"]}
{"id": "C84", "title": "Text written for a storage, table or vector determines its contents", "statement": "The text that a storage is written as, read as lines of tab-separated fields, is one line with the labels and one line for every frame with its values; for a table a line with Row and the column labels and one line for every row with its label and cells; for a vector one line with its elements. So nothing is lost or moved, provided no label or value contains a tab or line break. Not true of a storage without channels (frames are lost) and an empty vector (looks like one empty text).", "quantifier": "every history of operations on the storage or table, all vectors, any way of writing labels and values without tabs and line breaks", "why_tests_cant": "the shapes and histories are unbounded; tests look at one printed table", "anchors": ["flut/storage.hpp: operator<<", "flut/table.hpp: operator<<", "flut/container_tools.hpp: operator<< for std::vector"]}
{"id": "C85", "title": "Writing by name changes one value of the last frame", "statement": "sto[ label ] = x makes x the value under that label in the last frame, adds the label if it is new, and changes no other cell; write_storage of a vector or quaternion does that for the names with .x, .y, .z (and .w). Without a frame it throws.", "quantifier": "every history of operations on the storage, all labels, values, vectors and quaternions", "why_tests_cant": "histories are unbounded and adding a channel moves all the data", "anchors": ["flut/storage.hpp: operator[]", "flut/storage.hpp: write_storage"]}
{"id": "C86", "title": "Values between two frames are interpolated linearly", "statement": "get_interpolated_value( f, c ) is the value of channel c on the straight line between the two frames around f: the value of the frame itself if f is an index, between the two values otherwise. Every index of a frame is allowed; other frames and channels that do not exist are reported. The last two parts are false of the code: the last frame is rejected, a negative index is undefined, and the channel is not checked.", "quantifier": "every history of operations on the storage, all channels, all frame positions", "why_tests_cant": "continuous domain, unbounded histories", "anchors": ["flut/storage.hpp: get_interpolated_value"]}
{"id": "C87", "title": "Sampled output of a function covers its range evenly", "statement": "output_function with n >= 2 samples writes n lines of x and f( x ): the first for min, the last for max, and neighbouring x at equal distances.", "quantifier": "all ranges, functions and numbers of samples", "why_tests_cant": "all functions and ranges", "anchors": ["flut/debug_tools.hpp: output_function"]}
{"id": "C88", "title": "The profiler's report shows the call tree with its times", "statement": "After any history of entering and leaving sections, report() gives a tree with one node for each path of calls that was entered: under the same parent slowest first, each with the total time of its finished invocations, the time without the calls made from it and the time the profiler itself took in it and below. The root shows the time since the reset. Sections with the same text are one section: this is false of the code, which compares addresses, so two of them become one node that shows only the time of one.", "quantifier": "every history of start and end of sections (nesting, recursion, reports in between), all clock readings", "why_tests_cant": "the call trees and interleavings are unbounded", "anchors": ["flut/system/profiler.cpp: report, report_section, exclusive_time, total_overhead, get_children"]}
{"id": "C89", "title": "A property tree written to a stream shows the whole tree", "statement": "Writing a property tree to a stream gives one line for each node below the root, in order, indented by its depth, with its key and value; so two trees with the same listing are the same, and writing changes no content. The value of the root is not written, so the part about equal listings holds for trees with the same value at the root.", "quantifier": "all trees of any depth and width whose keys are words and whose values are single lines", "why_tests_cant": "trees are unbounded; alignment depends on the whole tree", "anchors": ["flut/prop_node.cpp: to_stream, get_align_width", "flut/prop_node.hpp: operator<<"]}
{"id": "C90", "title": "log_unaccessed names exactly the nodes that were not accessed", "statement": "log_unaccessed sends one message, indented by depth, for each node below the root that was not accessed or leads to one that was not, marks exactly the nodes not accessed with a star, and is silent if everything was accessed. It does not change the content. Calling it again gives the same messages: false of the code, because the search itself counts as access.", "quantifier": "all trees, all histories of access", "why_tests_cant": "which nodes are flagged depends on the whole history of access", "anchors": ["flut/prop_node_tools.cpp: log_unaccessed", "flut/prop_node.hpp: count_unaccessed"]}
{"id": "C91", "title": "integers of every width read from a char_stream", "statement": "Reading a short, int, long or their unsigned versions from a char_stream takes the numeral at the front, after blanks, gives its value if the type can hold it, and continues behind the delimiters that follow; without a numeral the stream fails and stays where it is. That an integer out of range is reported is false of the code: it is reduced modulo the size of the type or replaced by the extreme value.", "quantifier": "all stream contents, delimiters, widths", "why_tests_cant": "what is read depends on all following text; widths differ by platform", "anchors": ["flut/char_stream.hpp: operator>>( int& ), operator>>( unsigned int& ), operator>>( short& ), operator>>( unsigned short& ), operator>>( unsigned long& ), operator>>( unsigned long long& )"]}
{"id": "C92", "title": "bounds from property nodes and text", "statement": "Bounds built from a node take both limits from a value 'a..b' exactly as the texts a and b alone are read, a single number as both limits, the keys min/lower and max/upper of a node without value, with the extreme values of the type for missing ones, and fail on an empty node; integer bounds written to a stream are read back. False of the code: a lower limit that ends with a point shifts the upper one, and for integers texts that are no numbers become zero.", "quantifier": "all nodes, all numbers and following texts, all delimiters", "why_tests_cant": "which characters belong to the lower limit depends on every way to write a number", "anchors": ["flut/math/bounds.hpp: bounds( const prop_node& ), operator<<, operator>>", "flut/prop_node.hpp: get_any"]}
{"id": "C93", "title": "dynarray copies and owns its elements", "statement": "Through every history of creating, copying, moving, assigning, writing, filling and destroying dynarrays, each array holds what it would if arrays were plain values that are never shared, at() gives the element or throws, and each block of memory is owned by exactly one array alive until it is freed, once. That an array that was moved from can be asked for its size, and that an array can be assigned to itself, is false of the code.", "quantifier": "all element types, all histories of any number of arrays", "why_tests_cant": "aliasing and ownership errors depend on the history of copies, moves and destructions", "anchors": ["flut/dynarray.hpp: dynarray, operator=, at, operator[], size, assign"]}
{"id": "C94", "title": "clone copies every object", "statement": "clone of a vector of owning pointers returns new objects, one for each and in the same order, with equal values, and leaves everything that existed unchanged. A null pointer among them is dereferenced.", "quantifier": "all vectors, all heaps", "why_tests_cant": "sharing shows only when either copy is changed later", "anchors": ["flut/memory_tools.hpp: clone"]}
{"id": "C95", "title": "Catmull-Rom segments and their length", "statement": "A Catmull-Rom segment is the cubic curve from its second to its third point, with half the way between a point's neighbours as velocity at either; with exponent alpha the velocity is that of a point that takes distance^alpha from each point to the next. The length of a curve is that of the polygon through equally spaced points: at least the distance of the ends, not smaller with a multiple of the steps, exact on a straight line. Coinciding neighbours are not handled in the alpha version.", "quantifier": "all points of a normed space, all parameters, all curves and numbers of steps", "why_tests_cant": "polynomial identities and inequalities over the reals cannot be sampled", "anchors": ["flut/math/catmull_rom.hpp: catmull_rom_segment, catmull_rom_segment_alpha, compute_spline_length"]}
{"id": "C96", "title": "timer readings", "statement": "For any reading of the clock not before the start, nanoseconds are the difference, micro- and milliseconds its whole part in these units, seconds, minutes and hours the difference in these units, and readings do not decrease while the clock does not. The clock for old compilers shows the counter in whole nanoseconds; that it does so at all times is false: the product overflows.", "quantifier": "all readings of the clock, all counts and frequencies", "why_tests_cant": "overflow happens only after long uptimes", "anchors": ["flut/timer.hpp: timer", "flut/timer.cpp: windows_performance_counter_clock::now"]}
{"id": "C97", "title": "what is logged is in the file at once", "statement": "After every history of creating, destroying, registering and levelling log sinks and of messages, the file of every file sink has in it exactly the lines of the messages it was sent since it was created, in order, as far as the disk has room, and nothing if it could not be opened. If the program dies while a message is written, every line sent before is complete in the file, and only the beginning of the message follows.", "quantifier": "all histories of calls and messages, all moments at which the stream empties its buffer, all disk sizes, all crash points", "why_tests_cant": "crash points and buffering cannot be enumerated by tests", "anchors": ["flut/system/log_sink.hpp: stream_sink, file_sink", "flut/system/log.cpp: log_string"]}
{"id": "C98", "title": "clamp and bounds in floating point", "statement": "In IEEE arithmetic: for limits min <= max (possibly infinite) and a value that is a number, clamped(v,min,max) is within the limits, is v itself when v is within, and is the limit exceeded otherwise; NaN passes unchanged, so 'the result is always within' is false. is_between and bounds::is_within are true exactly for numbers in the range. set_if_smaller/bigger give the smaller/bigger of two numbers and ignore NaN. sign is 1 exactly for numbers not below zero (so for -0). bounds::get_violation is zero exactly within, negative exactly below and positive exactly above: differences never vanish by rounding.", "quantifier": "every float and double, infinities, zeros and NaN included", "why_tests_cant": "2^128 pairs of values; rounding and special values", "anchors": ["flut/math/math.hpp: clamp, clamped, is_between, set_if_smaller, set_if_bigger, sign", "flut/math/bounds.hpp: is_within, get_violation, clamp"]}
{"id": "C99", "title": "wrap in floating point stays in range up to one rounding", "statement": "In IEEE arithmetic: for finite v, lower < upper whose differences do not overflow, wrapped(v,lower,upper) is finite and within [lower,upper] exactly, and, if the width upper-lower is itself a value of the format, is within a stated rounding error of a number that differs from v by a whole number of widths. A value already inside is returned unchanged only if the difference to lower is exact: in general it is changed, the upper limit itself can be returned, and if a difference overflows the result is NaN.", "quantifier": "every float and double triple", "why_tests_cant": "rounding errors for all triples of values", "anchors": ["flut/math/math.hpp: wrap, wrapped"]}
{"id": "C100", "title": "soft_clamp in floating point respects its limits up to rounding", "statement": "In IEEE arithmetic: for finite values small enough that squares do not overflow, 0 <= boundary <= 1/2 and limits that are not tiny, soft_clamped is finite and within the limits up to 16 times their size divided by 2^precision; values in the middle part are returned unchanged; within each part the result grows with the value. Infinite values give the limit up to rounding, NaN passes. Exactly within the limits, monotone across the parts, and safe from overflow are false.", "quantifier": "every float and double quadruple in the stated range", "why_tests_cant": "rounding errors for all quadruples of values", "anchors": ["flut/math/math.hpp: soft_clamp, soft_clamped, limit_transfer"]}
{"id": "C101", "title": "pi and angle conversion in floating point", "statement": "constants<float>::pi() is the float nearest to pi. constants<double>::pi() is right to fourteen decimals but not the nearest double. half_pi and two_pi are exactly half and twice pi(). rad_to_deg and deg_to_rad are within 12 (double) or 3 (float) units of 2^-precision of multiplication by 180/pi and pi/180, keep the order of angles, and are inverse to each other up to 4 such units; not exactly.", "quantifier": "every finite float and double (no overflow)", "why_tests_cant": "all values; comparison with the real number pi", "anchors": ["flut/math/math.hpp: constants::pi, half_pi, two_pi, rad_to_deg, deg_to_rad"]}
{"id": "C102", "title": "equals and square_wave in floating point", "statement": "In IEEE arithmetic: equals(a,b,e) is true whenever |a-b| <= |a|e, and only if that holds up to a rounding error; with the default tolerance it is exact except near the least numbers. Every finite number equals itself, zero equals only zero, infinities and NaN equal nothing. square_wave of a finite non-negative number is exactly 1 in the first half of each period of 2 and -1 in the second; for negative numbers it is always 1.", "quantifier": "every float and double", "why_tests_cant": "all pairs of values, rounding and special values", "anchors": ["flut/math/math.hpp: equals, relaxed_epsilon, square_wave"]}
{"id": "C103", "title": "Hand-written prop documents are read as the tree they describe", "statement": "A document written by hand from entries `key = value` and `key { entries }`, with words that are bare or in single or double quotes (with the escapes for backslash, double quote, line feed, carriage return and tab), blanks around words, and line ends, tabs, semicolons and comments between tokens, is read by parse_prop and load_prop as the tree it describes: the same keys in the same order at every depth, with the values without the white space at their ends.", "quantifier": "all documents of the grammar, of any size and depth", "why_tests_cant": "documents are unbounded in length, depth and layout, and the places where a layout is misread are rare combinations of blanks, quotes and operators", "anchors": ["flut/prop_node_tools.cpp: parse_prop, read_prop_node, get_prop_token", "flut/char_stream.cpp: get_token, get_line"]}
{"id": "C104", "title": "Interpolation in floating-point arithmetic is exact up to rounding", "statement": "Interpolating an array by index, or samples by increasing keys, with `float` or `double` values gives the exact linear interpolation up to a few units of the last place of the larger magnitude; at a whole index, or at the key of a sample, it gives the element itself; outside the data it gives the first or last element; it never gives anything outside the two neighbours. The code falls short where an infinite neighbour turns an element at a whole index into not-a-number, where the interpolation between two equal elements gives a value above them, and where an index that is not a number or does not fit 64 bits is undefined.", "quantifier": "all arrays of floating-point numbers and all indices; all lists of samples with increasing keys and all keys; both formats", "why_tests_cant": "rounding errors are visible only for particular bit patterns; a test with 0.5 never meets them", "anchors": ["flut/buffer/interpolation.hpp: interpolated_value"]}
{"id": "C105", "title": "Averages and medians of floating-point numbers", "statement": "`average` of n `float` or `double` values is their mean up to about n units of the last place of the mean magnitude; `median` is the value in the middle, or for an even number of values the number nearest to the mean of the two in the middle, and lies between these two. The average of no values is not a number, the median of none is an assertion. The code falls short where the sum overflows: the average and the median of two large finite values are infinite; and the average of equal values can lie above all of them.", "quantifier": "all lists of finite floating-point numbers, in any order; both formats", "why_tests_cant": "accumulated rounding errors and overflow depend on the values and on how many there are", "anchors": ["flut/container_tools.hpp: average, median"]}
{"id": "C106", "title": "Polynomials and linear functions in floating-point arithmetic", "statement": "Evaluating a polynomial of degree n with `float` or `double` coefficients gives its exact value up to about n + 1 units of the last place of the sum of the magnitudes of its terms; with integers it is exact as long as powers and terms stay below 2^24 or 2^53; at zero it is the first coefficient. `intersect_y` gives the exact argument up to rounding, and an infinity or not-a-number for a horizontal line. A linear function of an infinite argument is infinite in the direction of its slope. The code falls short where a power overflows: the value is not a number even if the coefficient of that power is zero.", "quantifier": "all degrees, coefficients and arguments; both formats", "why_tests_cant": "rounding errors depend on the bit patterns and on the degree; overflow of a power with a zero coefficient is not something a test tries", "anchors": ["flut/math/polynomial.hpp: polynomial::operator(), intersect_y"]}
{"id": "C107", "title": "Vectors, quaternions, angles and bounds as stream text", "statement": "A vector, quaternion, angle or bounds of finite numbers written to a stream gives text that can be read back: each number is written as the nearest decimal number with at most six digits (ties to an even last digit), without superfluous digits, and with an exponent exactly if it is below 0.0001 or at least a million. Reading the text with operator>>, with from_str, or as the value of a prop_node gives for each number the value of its type nearest to that decimal number. Values that came from numbers with at most six digits are unchanged. Infinite values and NaN come back too.", "quantifier": "all float and double values, all vectors, quaternions, angles and bounds of them, all texts with decimal numbers to read", "why_tests_cant": "The nearest six-digit number and the nearest binary number must be right for every bit pattern, for every size from the smallest to the largest exponent; a test samples a few.", "anchors": ["flut/math/vec3.hpp: operator<<, operator>>", "flut/math/vec3_type.hpp: vec3_(const prop_node&)", "flut/math/quat.hpp: operator<<", "flut/math/angle.hpp: operator<<, operator>>", "flut/math/bounds.hpp: operator<<, operator>>", "flut/system/string_cast.hpp: string_cast"]}
{"id": "C108", "title": "An XML file whose saving was interrupted is never taken for another tree", "statement": "If the process is stopped while `save_xml` writes a file, at whatever moment, a later `load_xml` of that file throws, or gives an empty tree, or gives exactly the tree that was being saved: never a part of it, never a mixture. More generally, every beginning of a text that `load_xml` accepts is rejected, or is taken for an empty file, or loads as the same tree. For a saved tree with one root the beginnings that load are exactly those that lack at most the two line breaks at the end. What the file held before is lost once the file has been opened, and a file that was opened but not yet written loads as an empty tree without an error.", "quantifier": "every text that load_xml accepts and every beginning of it; every storable tree with one root and every point at which writing its text can stop; every file system and path that can be opened", "why_tests_cant": "the property is about every crash point of every save; a test stops a save at a few places of a few files", "anchors": ["flut/prop_node_tools.cpp: save_xml, load_xml", "contrib/rapidxml-1.13/rapidxml.hpp: parse"]}
{"id": "C109", "title": "What a prop file loads as when its saving was interrupted", "statement": "If the process is stopped while `save_prop` writes a tree in readable form, at whatever moment, a later `load_prop` or `parse_prop` recovers every node whose text was written completely, unchanged and in order, and at most one more thing at the point where writing stopped: a node with the written part of its key, or of its value, or with the children recovered in the same way from the written part of its group. A word that was cut is loaded as the characters that were written completely (without blanks at the end; a lone percent sign is lost), except that a control character whose three digits were cut becomes a question mark or the character with code 1, 2 or 3. Loading throws only if the text stops behind a quote, and runs forever only if it stops behind a backslash.", "quantifier": "every tree with printable keys and values and every point at which writing its text can stop; every file system and path that can be opened", "why_tests_cant": "the property is about every crash point of every save; a test stops a save at a few places of a few files", "anchors": ["flut/prop_node_tools.cpp: save_prop, load_prop, parse_prop, read_prop_node, get_prop_token", "flut/char_stream.cpp: get_token", "flut/string_tools.cpp: decode_char"]}
{"id": "C110", "title": "What an ini file loads as when its saving was interrupted", "statement": "If the process is stopped while `save_ini` writes a document, at whatever moment, a later `load_ini` throws if the text stops in a key or in the name of a group. Otherwise it recovers every item and every group that was written completely, unchanged and in order, and of the item in which writing stopped the key and the written part of the value, without blanks at its end. This is for documents whose keys do not start with a bracket and whose group names have no equals sign and no closing bracket.", "quantifier": "every such document and every point at which writing its text can stop; every file system and path that can be opened", "why_tests_cant": "the property is about every crash point of every save; a test stops a save at a few places of a few files", "anchors": ["flut/prop_node_tools.cpp: save_ini, load_ini", "flut/char_stream.cpp: get_line", "flut/string_tools.cpp: make_key_value_str, trim_str"]}
{"id": "C111", "title": "Lengths of vectors and quaternions in floating-point arithmetic", "statement": "For `float` and `double`, with every operation rounded: the square root is the nearest number, and exact if the root is a number; `invsqrt` is right to three units of the last place. If the sum of the squares of the components is neither too large nor too small for the format, `length` of a vector is right to three units and that of a quaternion to four. The length is exact for a vector along an axis, and for integer components if the length is an integer and its square is below 2^53 (2^24 for `float`). The length of a vector of numbers is never negative and never not-a-number; it is infinite if the square of a component is too large, and zero if all squares are too small.", "quantifier": "all vectors and quaternions with components of type float or double", "why_tests_cant": "the error bound is about all of 2^192 vectors and each of their roundings; a test compares a few with a tolerance", "anchors": ["flut/math/vec3.hpp: length, squared_length", "flut/math/vec3_type.hpp: length, squared_length", "flut/math/quat.hpp: length", "flut/math/math.hpp: invsqrt, signed_sqrt"]}
{"id": "C112", "title": "Normalising vectors and quaternions in floating-point arithmetic", "statement": "For `float` and `double`, with every operation rounded: if the squared length is in the range of the format and the length is at least one and a half times `epsilon`, `normalize` and `normalized` give a vector with the direction of the argument to five units per component (six for quaternions) and with squared length one to ten units (eleven). A vector shorter than half of `epsilon` is not changed. Unit vectors along the axes are not changed. A vector with a component whose square overflows becomes the null vector, one with a component that is not a number is not changed. `is_normalized` accepts vectors whose squared length is within four units of one and refuses those that are twelve or more units away.", "quantifier": "all vectors and quaternions with components of type float or double", "why_tests_cant": "the error bound is about every vector and each of its roundings; a test normalises a few and compares with a tolerance", "anchors": ["flut/math/vec3.hpp: normalize, normalized, is_normalized", "flut/math/vec3_type.hpp: normalized", "flut/math/quat.hpp: normalize, normalized, is_normalized, quat_from_axis_angle"]}
{"id": "C113", "title": "Products, quotients and distances of vectors in floating-point arithmetic", "statement": "For `float` and `double`, with every operation rounded: `dot_product` does not depend on the order of its arguments and is right to four units of the sum of the magnitudes of its terms; every component of `cross_product` is right to three; both are exact for integer components if the terms stay below 2^53 (2^24 for `float`). Exchanging the arguments of `cross_product` changes the sign of every component, and nothing else. The cross product of a vector with itself is the null vector if no product overflows. `distance` is the length of the difference, the same in both directions for all vectors, zero from a finite vector to itself, and right to four units if its square is neither too large nor too small for the format. Dividing a vector by a number is right to three units if the inverse of the number is neither too large nor too small, and exact if the inverse and the quotients are numbers. `is_null` holds exactly for vectors whose components are zeros.", "quantifier": "all vectors and numbers of type float or double", "why_tests_cant": "the error bounds and the symmetries are about every pair of vectors and each of their roundings; a test compares a few with a tolerance", "anchors": ["flut/math/vec3.hpp: dot_product, cross_product, distance, operator/", "flut/math/vec3_type.hpp: is_null"]}
{"id": "C114", "title": "The random number generator has the full period and depends on its seed only", "statement": "For every seed the numbers drawn from the engine stay between 1 and 2147483646, repeat after exactly 2147483646 draws and not before, and every one of these values occurs exactly once per period. Two generators with the same seed give the same numbers for ever, and seeding again starts the sequence again. That different seeds give different sequences is refuted: seeds 0 and 1 do not differ, nor do seeds that differ by 2147483647; all other pairs do differ, from the first number on.", "quantifier": "every seed, every number of draws", "why_tests_cant": "the period is two thousand million draws, and the claim is about all seeds and all positions", "anchors": ["flut/math/random.hpp", "flut/math/random.cpp"]}
{"id": "C115", "title": "Uniform random numbers stay within their limits", "statement": "For every seed, after any number of draws and for finite limits a and b with a below or at b whose difference does not overflow, uni( a, b ) and rand_uni( a, b ) give a finite number from a to b. With equal limits the number is a. For the limits 0 and 1, and 0 and a power of two, the upper limit is never reached. That the upper limit is never reached for other limits is refuted: in float with limits 1 and 2 the number 2 occurs; for double it is never reached if the limits are not too close together compared with their size.", "quantifier": "every seed, number of draws, pair of limits, float and double", "why_tests_cant": "the upper limit is reached for one seed in many millions", "anchors": ["flut/math/random.hpp", "flut/math/random.cpp"]}
{"id": "C116", "title": "Normally distributed random numbers exist and have bounded size", "statement": "For every seed and after any number of draws norm( mean, stdev ) ends, whatever the logarithm function does, after an even number of calls of the engine. The number belongs to the first point of the sequence within the disk. If the logarithm is right to one per cent, the number is finite and at most 12.5 standard deviations (8.5 for float) from the mean, up to the rounding of the mean; without deviation it is the mean.", "quantifier": "every seed, number of draws, mean and deviation below the largest number over 32, every logarithm function of the stated accuracy", "why_tests_cant": "that the search for a point ends in every state, and the bound, are claims about all two thousand million states of the engine", "anchors": ["flut/math/random.hpp", "flut/math/random.cpp"]}
{"id": "C117", "title": "Settings written under delimited keys, saved and loaded are read back", "statement": "A program that writes any sequence of settings (int, size_t, bool, float, double, string) with set_delimited into an empty prop_node, in any order and any number of times per key, reads each of them with get_delimited as the value written last: exactly for int, size_t, bool and string, within one in the sixth decimal for float and double. Reading a key that is neither a setting nor a group throws. The same holds after save_prop and load_prop on a file, after save_xml and load_xml if all settings share one root, and after save_ini and load_ini if each setting is directly in a group. The keys and strings must be ones the file format can hold, and no key may be both a setting and a group: writing a group as a value removes the settings in it.", "quantifier": "all sequences of settings of any length, nesting depth and values, all delimiters, all file systems in which the file can be written and read", "why_tests_cant": "Tests write a handful of settings; the claim covers every order, nesting and value, and the composition of key splitting, number formatting, file writing and parsing.", "anchors": ["flut/prop_node.hpp: set_delimited, get_delimited, get_or_add_child", "flut/system/string_cast.hpp: string_cast", "flut/prop_node_tools.cpp: save_prop, load_prop, save_xml, load_xml, save_ini, load_ini"]}
{"id": "C118", "title": "Products of floating-point quaternions are those of Hamilton, and long products keep their length", "statement": "In IEEE arithmetic the product of two quaternions differs from Hamilton's product by at most nine units (of 2^-53 for double, 2^-24 for float) of the product of their lengths (plus the smallest numbers), if that product does not overflow; the conjugate and products with the identity are exact. The product of any number n of quaternions of length one (to six units, as normalize makes them) has length one to 15 n units and is within 9 n units of the exact product, as long as 15 n units are below a hundredth.", "quantifier": "every pair of finite float or double quaternions whose product does not overflow; every list of nearly normalised quaternions", "why_tests_cant": "Rounding errors depend on every bit of eight numbers and accumulate over a product of any length; tests see a few samples.", "anchors": ["flut/math/quat.hpp: operator*, operator-, normalize", "flut/math/quat_type.hpp: quat_, identity"]}
{"id": "C119", "title": "Rotating floating-point vectors is a rotation", "statement": "In IEEE arithmetic, multiplying a vector by a quaternion whose length is one to delta gives the vector Q V Q^-1 of Hamilton's rotation, and keeps the length of the vector, to 22 units plus five delta of the length (plus the smallest numbers). Rotating by the result of normalize gives the rotation of the quaternion that was normalised to 70 units; rotating one after the other by n normalised quaternions is right to 53 n units, and rotating once by their computed product to 22 + 96 n units. Rotating by the identity is exact.", "quantifier": "every finite float or double quaternion and vector without overflow, every sequence of rotations", "why_tests_cant": "The error of a rotation depends on every bit of seven numbers and the errors of a chain of rotations add up; tests only sample.", "anchors": ["flut/math/quat.hpp: operator*( quat_, vec3_ ), normalize", "flut/math/vec3.hpp: cross_product, operator*=, operator+"]}
{"id": "C120", "title": "Transforms in floating-point arithmetic undo one another and compose", "statement": "In IEEE arithmetic, transforming a vector V by a transform with position P and a normalised quaternion Q gives P + Q V Q^-1 to one unit in the last place of the length of P and sixty of that of V (plus the smallest numbers); transforming back gives Q^-1 (V - P) Q to sixty units of the distance from P. A vector that is transformed and transformed back, in either order, is the vector again to 121 units of the rotated length and two of the length of P. Transforming by a product of transforms, by an inverse, or by inv_transform of a transform is transforming by one after the other, with the errors stated in the theorems.", "quantifier": "every finite float or double transform with a nearly normalised quaternion and every vector, without overflow", "why_tests_cant": "The errors depend on every bit of ten to seventeen numbers; tests only sample.", "anchors": ["flut/math/transform.hpp: operator*, transform, inv_transform, inverse", "flut/math/vec3.hpp: operator-, operator+", "flut/math/quat.hpp: operator*"]}
{"id": "C121", "title": "Bounding boxes of floating-point numbers", "statement": "Adding points and boxes of any floating-point coordinates, infinite ones included, to a bounding box whose bounds are numbers gives a box that contains everything added and everything it contained before. From the default constructor and finite coordinates the box is the least one and each bound is, to the bit, a coordinate that was added; with infinite coordinates it is not the least. Coordinates that are not numbers are ignored on their axis; but a box made from a point with such a coordinate never contains anything, whatever is added. The order of additions only affects the sign of zeros, and collecting into two boxes and adding one to the other gives the same bits as collecting into one.", "quantifier": "every sequence of added points and boxes with any float or double coordinates, including infinities and not-a-number", "why_tests_cant": "Not-a-number compares false with everything, so the answer depends on where in the sequence it appears; only a proof over all sequences covers every position.", "anchors": ["flut/math/bounding_box.hpp: bounding_box_, operator+=", "flut/math/math.hpp: set_if_smaller, set_if_bigger, constants"]}
{"id": "C122", "title": "Piecewise linear functions in floating-point arithmetic", "statement": "A regular_piecewise_linear_function of floats or doubles is, for every argument in its range, the piecewise linear function through the values that were stored, with an error of at most 10 n + 8 units in the last place of the largest of these for n intervals. The stored values are those of the given function at points that differ from the points of the grid by at most one unit of the lower limit and five of the width. Where the computed index is a whole number the stored value is returned exactly. The result is undefined exactly if the computed index is not finite or does not fit in an int.", "quantifier": "every format (float, double), every lower and upper limit, every number of intervals up to 2^prec / 16 and 2^31, every function and every argument", "why_tests_cant": "The error of the index grows with the number of intervals and depends on how the limits and the argument round; tests compare a few arguments with a tolerance.", "anchors": ["flut/math/regular_piecewise_linear_function.hpp: regular_piecewise_linear_function"]}
{"id": "C123", "title": "The debug file holds everything that was written", "statement": "When a program that called set_debug_output and write_debug ends, the file named last (debug.txt if none was named) holds a line with the labels in the order of their first use and one line for every frame, with each value of the frame under its label, to six digits, and the sentinel (the lowest number, -3.40282e+38) under the other labels; a frame ends where a label comes again. So the fields under a label, without those that look like the sentinel, are the values written with it, in order. No other file changes; nothing changes if nothing was written or the file cannot be opened.", "quantifier": "every sequence of calls with labels that contain no tab or line break and floats (finite or not) other than the sentinel, every file system", "why_tests_cant": "How values fall into frames and where columns are added depends on the whole history of calls; tests write a few values.", "anchors": ["flut/system/debug_storage.cpp: auto_storage_writer, set_debug_output, write_debug", "flut/storage.hpp: storage, operator<<"]}
{"id": "C124", "title": "Delayers in single precision keep time and delay the signal", "statement": "A delayer of floats, whose clock and window are floats, keeps time: after any number of samples with steps between zero and the window, the windows that have passed and the time in the current one add up to the sum of the steps to 2 * window / 2^24 for each sample, and the place where samples are stored has moved on by one for each window. If the window and the steps are multiples of one power of two with the window at most 2^21 times it, the state is exactly that of the delayer with exact arithmetic, and for steps that divide the window the output is the signal one delay ago, interpolated between the stored samples, to 11 units of the largest sample. Steps too small to move the clock are lost: after half of a delay of one second, no number of steps of 2^-26 s changes the output.", "quantifier": "every number of places, delay, initial value, sequence of samples and of steps (also non-uniform ones), with all operations rounded as IEEE 754 prescribes", "why_tests_cant": "Drift is the sum of the errors of all steps; no test runs all histories, and the loss of small steps shows only for particular ratios of step and window.", "anchors": ["flut/math/delayer.hpp: delayer, add_sample, delayed_value"]}
{"id": "C125", "title": "Running averages in floating-point arithmetic", "statement": "For values with non-negative weights added one after the other in any order, the running average (float or double) is their weighted mean to 3 (n+1) units in the last place of the weighted mean of the magnitudes, apart from underflow of the products, for up to a sixteenth of 2^24 (2^53) values whose sums do not overflow; without weights there is no underflow term. The average is empty exactly if all weights were zero. That it always lies between the least and the greatest value is false: after 2^24 (2^53) values 1 and three quarters as many values 3.5 the average is 4.", "quantifier": "every list of values and weights, both formats, with all operations rounded as IEEE 754 prescribes", "why_tests_cant": "The error grows with the number of values; the wrong result needs more than sixteen million of them (float) or more than a test could ever add (double).", "anchors": ["flut/math/average.hpp: average_"]}
{"id": "C126", "title": "the numbers in the profiler's report", "statement": "Each line of the profiler's report shows the total time in whole milliseconds, its share in the time of the program and that of the exclusive time, and the share of the overhead in the total time as percentages with two decimals; each is within half a unit of the last decimal shown, up to the rounding errors of double, in columns of fixed width, and is never cut off. Lines have the same length while no column overflows. A section without a finished invocation has no such line: its overhead is shown as inf or nan.", "quantifier": "all times that fit in a long long", "why_tests_cant": "rounding and widths depend on every combination of four 64-bit numbers", "anchors": ["flut/system/profiler.cpp: report_section", "flut/string_tools.cpp: stringf"]}
{"id": "C127", "title": "property trees and several threads", "statement": "Threads that read separate parts of one property tree with const members, no part below another, together with threads that only copy the tree or ask for sizes, never race: each gets the answers and leaves the access marks it would have alone, and nothing else in the tree changes. Two threads that read the same node always race, because reading marks the node.", "quantifier": "all trees, all numbers of threads, all programs that use earlier answers to choose later calls, and all schedules", "why_tests_cant": "the number of schedules grows exponentially, and a race need not show in any test", "anchors": ["flut/prop_node.hpp: get", "flut/prop_node.hpp: get_child", "flut/prop_node.hpp: has_key", "flut/prop_node.hpp: find", "flut/prop_node.hpp: access", "flut/prop_node.hpp: is_accessed", "flut/prop_node.hpp: count_unaccessed"]}
{"id": "C128", "title": "logging from several threads", "statement": "Threads that log messages while nobody changes sinks or levels do not race on sinks that write to std::cout, nor on the file of a sink that receives messages of one thread only. Every message reaches the same sinks as without threads, no character is lost or invented, and the characters of each thread keep their order; but lines of different threads can be mixed. Two threads that log to the same file always race, and so do a thread that logs and one that changes a level, removes a sink or asks for the global level.", "quantifier": "all sets of sinks and levels, all numbers of threads, all programs that log depending on what they are told about levels, and all schedules", "why_tests_cant": "the number of schedules grows exponentially, and a race need not show in any test", "anchors": ["flut/system/log.cpp: log_string", "flut/system/log.cpp: get_global_log_level", "flut/system/log.cpp: set_global_log_level", "flut/system/log.cpp: add_sink", "flut/system/log.cpp: remove_sink", "flut/system/log_sink.hpp: stream_sink", "flut/system/log_sink.hpp: file_sink"]}
{"id": "C129", "title": "the interrupt flag", "statement": "test_interrupt_flag is false until interrupt is called and true for ever after, when calls are ordered; threads that only ask never race. A thread that interrupts another always races with its tests, because the flag is an ordinary variable.", "quantifier": "all sequences of calls, all numbers of threads and all schedules", "why_tests_cant": "the race is there in every schedule but shows in none on common hardware", "anchors": ["flut/interruptible.hpp: interruptible", "flut/interruptible.cpp: interrupt", "flut/interruptible.cpp: test_interrupt_flag"]}
{"id": "C130", "title": "the profiler belongs to one thread", "statement": "start_section, end_section and report throw in any thread other than the one that the profiler was made in, change nothing there and do not race with its owner, whose measurements are as if there were no other threads. reset is not guarded and races. If the standard library initialises a thread identifier when the program runs, the profiler belongs to no thread and every call throws.", "quantifier": "all programs of all threads, all clock readings and all schedules", "why_tests_cant": "depends on schedules and on the order in which static variables are initialised", "anchors": ["flut/system/profiler.cpp: start_section", "flut/system/profiler.cpp: end_section", "flut/system/profiler.cpp: report", "flut/system/profiler.cpp: reset", "flut/system/profiler.cpp: instance_thread_"]}
{"id": "C131", "title": "formatted text", "statement": "stringf, messagef and the other printf-like functions give the text that the C standard prescribes for the format and its arguments: text stands for itself, %% for a percent sign, and each conversion shows its argument with the flags, width and precision asked for. The texts that the library itself makes in this way (versions, unique folder names, escape sequences, report lines, keys of list items) are the intended ones.", "quantifier": "every sequence of text, %% and conversions d i u o x X c s f F e E g G with any flags - 0 + blank, width, precision and length l, ll, z; every argument list; every level and set of log sinks", "why_tests_cant": "Formats and arguments are unbounded, and the cut at 255 or 1023 characters or a wrong argument type only shows for unusual values.", "anchors": ["flut/string_tools.cpp: stringf, encode_char", "flut/system/log.cpp: log_vstring", "flut/system/log.hpp: messagef", "flut/system/version.hpp: to_str", "flut/filesystem.cpp: create_unique_folder", "flut/system/profiler.cpp: report_section", "flut/prop_node.hpp: prop_node_cast<vector>"]}
{"id": "C132", "title": "Loading a prop document, saving it and loading it again gives the same tree", "statement": "If a prop document loads, and none of its keys and values contains one of = { } % ; ' without also containing a character that makes the writer use quotes, and all characters are 7-bit, then saving the tree in the readable form and loading the result gives the same tree, whatever the document looked like (comments, spacing, several nodes on one line, missing values). Every 7-bit document without quotes meets the condition as long as no value is a lone = or brace. A single value survives being saved and loaded exactly if it is 7-bit, trimmed and free of the special characters or written in quotes.", "quantifier": "all texts, of any length, all trees they load as, all keys and values", "why_tests_cant": "The documents are arbitrary texts and the trees have arbitrary size and depth; which of them survive depends on every character.", "anchors": ["flut/prop_node_tools.cpp: get_prop_token, read_prop_node, parse_prop, write_prop_none, save_prop", "flut/char_stream.cpp: char_stream::get_token", "flut/string_tools.cpp: try_quoted"]}
{"id": "C133", "title": "Catmull-Rom segments are accurate in floating-point arithmetic", "statement": "For `float` or `double` points of magnitude at most M, where M is at most a thousandth of the largest number, and a parameter from 0 to 1, a `catmull_rom_segment` gives the point of the Catmull-Rom curve up to 96 half units of the last place of M (and 30 times the smallest number). At 0 it gives the second point exactly. At 1 it gives the third point exactly if the points are multiples of a common power of two and not too large. The code falls short where a segment does not end at its third point, so that consecutive segments are not joined, where the curve through four equal points leaves them, and where large points give not-a-number although the curve is finite.", "quantifier": "all four points and parameters in both formats", "why_tests_cant": "rounding errors and overflow are visible only for particular bit patterns; tests use whole numbers, for which the curve is exact", "anchors": ["flut/math/catmull_rom.hpp: catmull_rom_segment"]}
{"id": "C134", "title": "Access flags survive changes of a tree only while its vector has room", "statement": "push_back, set, operator[], merge, erase, assignment, copying and moving of a prop_node give the contents that C20 to C25 describe, whatever the flags and the capacities of the vectors of children are. Adding a child while the vector of children has room changes no flag, and so no sequence of reads and additions that fits clears a flag. Adding a child when the vector is full clears the flags of all other descendants of the node; in a node that is filled child by child this happens exactly when the number of children is a power of two. Hence a value that was read counts as unaccessed again after another key has been asked for with operator[]. Erasing a child leaves the flags of the children behind it where they were, so they belong to other children afterwards. Assigning a node keeps the flags at the places that the old and the new node share, unless the new children do not fit.", "quantifier": "all trees with all flags and capacities, all keys, all sequences of reads and additions", "why_tests_cant": "whether a flag is lost depends on the history of capacities; tests with one or two values see only one case", "anchors": ["flut/prop_node.hpp: prop_node (copy and move constructors and assignment), push_back, set, get_or_add_child, operator[], erase, merge_prop_nodes, access, count_unaccessed"]}
{"id": "C135", "title": "Assigning a node from its own child, and merging it with one", "statement": "After pn = pn.get_child( i ) the node has the contents that the child had, provided that the children of the child do not fit into the memory of the node, or that there are not more of them than children before the child. If they fit, the child is not the last one, and it has at least two more children than there are before it, the assignment is undefined. In a copied tree, whose vectors have no spare room, the assignment is right or undefined, and it is undefined exactly if the child has at least i + 2 and at most as many children as the node. In other trees it can also silently give other contents. Assignment from std::move( pn.get_child( i ) ) is always right. Merging a node with its own child without overwriting gives what merging with a copy gives as long as the node has room for all but one of the new children, and is undefined for some nodes otherwise. The statement pn[ a ] = pn[ b ] with an existing child b sets the child a to the contents of b if the left side is evaluated first, if a exists, or if there is room for it; otherwise it is undefined.", "quantifier": "all trees with all capacities, all indices", "why_tests_cant": "whether memory is used after it was freed depends on the capacities of the vectors on a path of any length", "anchors": ["flut/prop_node.hpp: prop_node::operator=, prop_node::get_child, prop_node::push_back", "flut/prop_node_tools.cpp: merge_prop_nodes"]}
{"id": "C136", "title": "iir_filter in floating-point arithmetic stays near the exact filter for ever, if it is stable", "statement": "With T = float or double and at most 1000 coefficients: a step gives the right side of the difference equation for the numbers in the arrays, with an error of at most (N + 5) * S / 2^p + (3 * N + 1) * 2^e, where S is the sum of the magnitudes of the products and p and e belong to the format. If the magnitudes of the response of the recursive part to a single one add up to at most G, all outputs of a run of any length stay within G times such a bound of those of the exact filter, and are finite. G is at most 1 / (1 - A) if the magnitudes of the recursive coefficients add up to A < 1, and M / (1 - s) for two complex poles of magnitude up to s < 1. Negated input gives negated output, and zeros before the input delay the output (both but for the sign of zero). After an input or output that is not finite no output is finite again, also for filters without recursive part. velocity is the rounded difference of the last two outputs. A filter need not forget its input (the output never gets back to zero), a filter with unit gain need not settle at a constant input, and the output for a sum is not the sum of the outputs.", "quantifier": "both formats, all orders up to 1000, all coefficients and inputs, runs of every length", "why_tests_cant": "rounding errors feed back into later outputs: a bound for all run lengths is a statement about unbounded histories.", "anchors": ["flut/filter.hpp: iir_filter::operator(), velocity"]}
{"id": "C137", "title": "compute_channel_means and compute_covariance in floating-point arithmetic", "statement": "With T = float or double, for every storage that operations lead to: there is a mean for each channel and a table with a row and a column for each channel, whatever the values are. If a channel's values are finite, with magnitudes of at most A, and there are n frames with 1000 * n <= 2^p, its mean has an error of at most 8/7 * n * A / 2^p + 2^e / 2, and the covariance of two such channels an error of at most 27 * n * A * B / 2^p + 3 * (A + B + 1) * 2^e (p and e belong to the format, and 8 times n times A, B and A * B must be numbers of the format), whatever the other channels hold. The table is symmetric to the last bit, and no variance is negative, for all values. A channel with an infinite value or NaN has NaN in its whole row and column, and without frames everything is NaN. A channel that never changes may have a positive variance, and the square of a covariance may be more than the product of the variances.", "quantifier": "both formats, all storages and all their values, including infinities and NaN; error bounds for all numbers of frames up to 2^p / 1000", "why_tests_cant": "rounding errors grow with the number of frames and depend on every value; symmetry and signs have to hold for all bit patterns.", "anchors": ["flut/buffer/data_algorithms.hpp: compute_channel_means, compute_covariance"]}
{"id": "C138", "title": "linear_regression in floating-point arithmetic", "statement": "With T = float or double: linear_regression of two ranges throws if their sizes differ and returns a line otherwise, whatever the values are. Let E be the bound of the rounding error of the sum of squared deviations of x (22 * n^2 * A^2 / 2^p, and a little more), and let this sum be at least 2 * E. Then the slope is within 5/2 * (F + |s| * E) / D + |s| / 2^p + 2^e of the slope s of the line of least squares, where D is the exact sum and F the bound for the products, and the offset is off by at most A times that and 4 * n * (B + A * |s|) / 2^p, and a little more. With the other sign for every y the line is the same with the other sign. An infinite value or NaN among the points gives NaN for both. Points on a vertical line may be given a slope, points that are exactly on a line may give another line, and in single precision points with x near 2^24 on a line with slope 1/2 give slope 0.2.", "quantifier": "both formats, all ranges of points; error bounds for all numbers of points up to 2^p / 1000", "why_tests_cant": "the error depends on how far the values of x are apart, for all sets of points; a test has a few sets.", "anchors": ["flut/math/linear_regression.hpp: linear_regression"]}
{"id": "C139", "title": "A character stream can be read while the text it was made from exists, and its copies with it", "statement": "A char_stream made from a string keeps the text: it can be read for as long as it is not assigned or destroyed, whatever happens to other streams, to its copies and to buffers of the caller. A char_stream made from a buffer of the caller can be read until that buffer is freed. A copy of a stream starts where the stream is and returns what the stream would have returned; the two move independently. A copy is a stream of its own: it can be read when the stream it was copied from has been destroyed or assigned.", "quantifier": "every program that makes, copies, assigns, destroys and reads any number of streams and buffers, with every text", "why_tests_cant": "whether a stream can still be read depends on the whole history of copies, assignments and destructions before the call", "anchors": ["flut/char_stream.hpp:char_stream", "flut/char_stream.cpp:char_stream::char_stream", "flut/char_stream.cpp:load_char_stream"]}
{"id": "C140", "title": "References to the values of a flat_map stay valid while keys are added only as far as there is room", "statement": "A reference obtained from map[ k ] reads and writes the value of k for as long as the map exists and k is not erased, as for a std::map: whatever other keys are added, map[ k ] = map[ j ] copies the value of j to k.", "quantifier": "every program that adds, assigns, erases and clears keys and keeps any number of references to values, every policy by which the vector makes room, both orders of evaluation of an assignment", "why_tests_cant": "whether a reference is valid depends on the number of keys, the room the vector happens to have and the order of evaluation; a test that passes with one library or size says nothing about another", "anchors": ["flut/flat_map.hpp:flat_map::operator[]", "flut/flat_map.hpp:flat_map::erase", "flut/flat_map.hpp:flat_map::clear"]}
{"id": "C141", "title": "References to values of a storage or a table stay valid while there is room", "statement": "A reference to a value of a storage (from at, operator() or operator[] with a label) can be used, and reads and writes the value in that frame and channel, until the storage is cleared, a channel is added while there is more than one frame, or there is more data than the vector had room for when the reference was made; using it afterwards is undefined. In particular sto[a] = sto[b] copies a value if both channels exist, whichever side is evaluated first, but is undefined in one of the two orders if there is more than one frame and one of the channels is new. add_frame and add_channel may be given the data of the same storage only if that is empty. A reference to a value of a table can be used, and is one to the value in that row and column, until a column is added or there are more values than there was room for.", "quantifier": "every program of operations on a storage or table, references made and used at any time, every size, label and value, every rule by which a vector makes room, and both orders of evaluation of an assignment", "why_tests_cant": "Whether a reference survives depends on the capacity that the vector happens to have, so a test that reads through a stale reference usually reads the right value, or with a table silently one from another cell.", "anchors": ["flut/storage.hpp: operator[], at, add_channel, add_frame, resize", "flut/table.hpp: operator(), add_row, add_column, resize"]}
{"id": "C142", "title": "memoize is right for a function that calls itself", "statement": "Let the function given to memoize call the memoize object itself, any number of times and with arguments that depend on earlier results, and have the same result for arguments that the map takes to be equivalent. Then every call that ends gives the result, or throws the exception, that the function gives without memory; if the function ends without memory for the arguments asked for, so does the memoized one; and as long as nothing is thrown the function is called at most once with each argument, including the calls it makes of itself, and every argument asked for is equivalent to one of those.", "quantifier": "every such function (an arbitrary tree of calls), every argument and result type, every equivalence of arguments, every sequence of calls from a new memoize, every depth of recursion", "why_tests_cant": "The property is about all recursive functions and about calls nested while a map entry is being computed; tests show particular functions.", "anchors": ["flut/memoize.hpp: memoize::operator()"]}
{"id": "C143", "title": "Iterators of a circular_deque visit its elements and stay with them while there is room", "statement": "After any history begin() + i reads and writes element i, for i up to the size; it equals end() exactly if i is the size, differences are distances, and ++ goes to the next. As long as what is added fits the capacity, an iterator reads the same element, whatever else is pushed or popped at either end, until that element is removed.", "quantifier": "every history of operations, every capacity below 2^62, every element, every later history", "why_tests_cant": "Whether an iterator still matches begin() and end() depends on where the elements wrap around in the buffer.", "anchors": ["flut/circular_deque.hpp: iterator_impl, begin, end"]}
{"id": "C144", "title": "Relative names follow the current folder, and one can go back to it", "statement": "After current_path( p ) of a folder p, every relative name q stands for what p / q stood for before: the same files and folders exist, loading, saving, copying and creating folders have the same results and effects, and going on to q is going to p / q; absolute names stand for the same as before. current_path() is an absolute name of the current folder after any calls, and passing it to current_path later goes back there. Going to a folder that does not exist is reported: false of the code, which stays in the old folder silently, so that later files are written there. False as well: that current_path() and get_documents_folder() are defined when the folder is gone or HOME is not set, that get_application_folder() is a folder, and that a file which includes another by its absolute name can be loaded from another folder.", "quantifier": "all file systems, folder names, relative and absolute file names and sequences of changes of the current folder", "why_tests_cant": "a test uses a few folder names and never a missing folder, a removed one or an unset HOME; the relation between names must hold for every depth, for dots and repeated slashes", "anchors": ["flut/filesystem.cpp: current_path, get_documents_folder, get_application_folder, load_string, copy_file, folder_exists", "flut/system/path.cpp: operator/", "flut/prop_node_tools.cpp: load_file_with_include"]}
{"id": "C145", "title": "A folder of files that include one another can be moved and renamed", "statement": "If all files in a folder name the files they include by names without two dots in a row, then a copy of the folder anywhere, under any name, behaves the same: load_file_with_include of a file in it gives the same tree, with the same values in the same order, or the same exception, however deep the includes and folders go and whatever the current folder is. False without that condition: a file that includes one from the folder above no longer loads when its folder is moved.", "quantifier": "all pairs of file systems with folders of the same contents, names of the folders, names of files in them, contents of files in the native format and XML, include directives, levels of nesting and current folders", "why_tests_cant": "tests load includes from the folder they were written in; that no name depends on the folder, at any depth of folders and of includes, is a statement about two file systems", "anchors": ["flut/prop_node_tools.cpp: load_file_with_include, load_file", "flut/system/path.cpp: operator/, parent_path", "flut/filesystem.cpp: load_string"]}
{"id": "C146", "title": "A sink can use the log while it receives a message", "statement": "A sink that logs messages itself, or asks for or sets levels, while it receives a message gets and sends everything as one expects: each registered sink in order of registration gets the message if its level admits it at that moment, and whatever a sink logs in response, to any depth, is delivered to all sinks before the next sink gets the message. If sinks log only what is less important than what they received, every message returns. Not true: that all sinks see messages in the same order; that logging at the own level returns; that a sink may be created, destroyed or unregistered in response to a message, which is undefined even if a sink exists for that moment only.", "quantifier": "all sinks whose behaviour is any function of everything that was sent so far, all programs that create, destroy and register sinks, change levels and log, all depths of messages within messages", "why_tests_cant": "send_log_message is virtual, so sinks are code of the user; tests use sinks that only write, and nested delivery has no bound on its depth", "anchors": ["flut/system/log.cpp: log_string, add_sink, remove_sink, get_global_log_level, set_global_log_level", "flut/system/log_sink.hpp: try_send_log_message, sink, ~sink", "flut/system/log.hpp: message"]}
{"id": "C147", "title": "Logging from static objects", "statement": "If the source file of the log is initialised before all static objects that use it, static sinks get messages from their construction to their destruction and static objects can log in constructors and destructors, as if the log existed all the time. Whatever the order of initialisation is, messages logged by constructors of static objects are harmless, and static objects that log only below the level critical are harmless altogether, if all sinks are created by main and destroyed at its end, or if there are no sinks and no level is set. Not true in every order: that static sinks can be used, that critical messages can be logged in destructors of static objects, and that messages can be logged in destructors if a level was set without any sink or if a sink is never destroyed.", "quantifier": "all lists of static objects, calls of the log in their constructors and destructors, programs, and orders in which the linker initialises the source files", "why_tests_cant": "a test program is linked in one order; whether a use before initialisation or after destruction shows depends on the linker, the compiler and the allocator", "anchors": ["flut/system/log.cpp: global_sinks, lowest_log_level, log_string, add_sink, remove_sink, set_global_log_level, test_log_level", "flut/system/log_sink.hpp: sink, ~sink"]}
{"id": "C148", "title": "A storage or a table can be used on after an exception", "statement": "A program that catches every exception of a storage (add_channel with a value or with values, add_frame, resize, writing a cell, writing by label, clear) or of a table (add_row, add_column, writing a cell) and goes on never reaches undefined behaviour, and what the storage or table then shows is fully described: calls that throw lose no cell and no label, and leave everything exactly as it was unless they were to make a channel. A repeated label, or writing by a new label before there is a frame, throws but leaves the new channel behind.", "quantifier": "all types of values and labels, all sizes at construction and all histories of calls of any length, with every exception caught", "why_tests_cant": "The state after an exception depends on how far a call got; tests stop at the exception.", "anchors": ["flut/storage.hpp: add_channel, add_frame, resize, at, operator[]", "flut/table.hpp: add_row, add_column, operator()", "flut/buffer/data_header.hpp: set, add, resize"]}
{"id": "C149", "title": "References to nodes of a property tree are good until a vector above them grows", "statement": "For a program that holds references to nodes of a property tree, as push_back, operator[] and get_child return them, and makes calls through them: a call keeps every reference to a node that is not below the one it is made on, whatever it does; calls that read, set_value, get_child and operator[] of an existing key keep all references; adding a child keeps all references while the vector of children has room, so after reserve(n) the references to n children are all good, in their order. Adding a child without room, reserving more room, and clear make every reference below the node unusable for ever. Using a reference is undefined exactly if it was lost in one of these ways or by set on an existing child above it.", "quantifier": "all property trees that a program can build, all programs of any length with any number of references, all keys, values and numbers reserved", "why_tests_cant": "Whether a dangling reference still seems to work depends on the allocator and on capacities; a test that reads freed memory usually passes.", "anchors": ["flut/prop_node.hpp: push_back, get_or_add_child, operator[], get_child, set, set_value, reserve, clear"]}
{"id": "C150", "title": "Files hold the trees that were saved last, and trees can be converted from format to format", "statement": "A program that saves and loads property trees in any order with save_prop, save_xml, save_ini, load_prop, load_xml, load_ini and load_file: if the names can be written to and read from, each saved tree fits its format, and each file is loaded in the format it was saved in (load_file takes names that end in .xml for XML and others for prop), then nothing throws, each loaded tree is the one that was saved last to that file, under whatever name, and all other files are untouched. In particular a tree that fits several formats can be converted between them any number of times.", "quantifier": "all file systems, all trees, all programs of any length, all names including different names of one file", "why_tests_cant": "Errors of a format add up over conversions, and files can be overwritten under another name; tests convert once.", "anchors": ["flut/prop_node_tools.cpp: save_prop, save_xml, save_ini, load_prop, load_xml, load_ini, load_file"]}
{"id": "C151", "title": "How deep the stack gets when trees are read, written and destroyed depends only on the depth of the tree", "statement": "Reading a property tree needs as many nested calls as the tree is deep (load_prop, parse_prop), or as there are elements inside each other (load_xml); this is at most half, or a third, of the length of the text. With room on the stack for so many calls the result is that without any limit, and with less the stack overflows. Texts that end with an exception also have such a number of calls. Saving a tree needs as many calls as it is deep and destroying it one more, so what can be read can be saved and destroyed. Reading a text never overflows the stack.", "quantifier": "all texts, valid or not; all trees; all limits on the number of nested calls", "why_tests_cant": "The text that exceeds the stack depends on the platform, and tests with flat files never come near it.", "anchors": ["flut/prop_node_tools.cpp: read_prop_node, parse_prop, load_xml, get_rapid_xml_node, write_prop_none, save_prop", "flut/prop_node.hpp: ~prop_node", "contrib/rapidxml-1.13/rapidxml.hpp: parse_element, parse_node_contents"]}
{"id": "C152", "title": "Values between two frames of a storage of floating-point numbers", "statement": "With float or double values, get_interpolated_value( f, c ) is the exact linear interpolation between the two frames around f up to a few units of the last place of the larger magnitude, and the value of the frame itself if f is its index and the next frame is finite. Every frame can be addressed, an index outside the frames and a channel that does not exist are reported, and the result never leaves the two values. The second sentence is false of the code: the last frame is rejected, an index below zero (by however little), infinite or not a number is undefined, a channel that does not exist is not reported, there is no float for frame 16777217, a frame before an infinite one gives not-a-number, and between two equal values the result can be above both.", "quantifier": "all storages, channels and positions; all float and double values, infinities and not-a-number included", "why_tests_cant": "Rounding depends on every bit of the position and of the two values; the exceptions need positions that are not in range or storages with millions of frames.", "anchors": ["flut/storage.hpp: get_interpolated_value"]}
{"id": "C153", "title": "Settings in several layers: the most important layer that has a group decides about it", "statement": "A program that loads or writes several trees of settings and merges them with merge_prop_nodes, either from the most important one on without overwriting or up to it with overwriting, reads each setting with get_delimited as the most important tree has it, among the trees that have anything under the first part of its key, and gets an exception if that tree does not have it. A setting that only a less important tree has is found. A tree reads the same after it was merged into an empty one.", "quantifier": "all numbers of layers; all trees and all settings of all types, written in any order and any number of times; all keys and delimiters", "why_tests_cant": "Which layer a key is taken from depends on the combination of groups of all layers.", "anchors": ["flut/prop_node_tools.cpp: merge_prop_nodes", "flut/prop_node.hpp: set_delimited, get_delimited"]}
{"id": "C154", "title": "quat_from_axes gives the rotation to three axes, within rounding", "statement": "For three axes of float or double values that are within 1/1000 of a right-handed frame of vectors of length one, quat_from_axes returns a quaternion within 6 times that distance and 22 units of rounding of a unit quaternion that rotates the axes of the coordinates to the frame exactly, whichever of its four branches is taken; and rotating an axis of the coordinates with the result gives the axis of the frame, within 44 times the distance and 182 units of rounding. Axes that are not of this kind are refused.", "quantifier": "all axes of float or double values, all right-handed frames near them, all rotations, all branches", "why_tests_cant": "Errors in the axes and rounding can move the trace to the other side of zero and change the largest entry of the diagonal; the branches divide by square roots that may be small.", "anchors": ["flut/math/quat.hpp: quat_from_axes", "flut/math/mat33.hpp: mat33_from_axes"]}
{"id": "C155", "title": "Quaternions from an axis and an angle and from Euler angles are the right rotations, within rounding", "statement": "For float and double, with every operation rounded and sin and cos of the library within k units of rounding: quat_from_axis_angle refuses an axis that is_normalized does not accept; for every other axis and every finite angle, in degrees or radians, it returns a quaternion within 2.1 k + 15 units of rounding (1 / 2^24 or 1 / 2^53), and 14 more for every radian of an angle given in degrees, of a unit quaternion that leaves the direction of the axis as it is and turns every vector at a right angle to it by the angle. quat_from_euler gives, for all finite angles and all six orders, a quaternion within 6.1 k + 20 units, and 14 more for every radian of angles given in degrees, of the product in that order of the rotations about the axes of the coordinates.", "quantifier": "all axes and finite angles of float or double values, both units, all six orders, all libraries of the given accuracy", "why_tests_cant": "The errors of the conversion to radians, of the halves, of sin and cos and of the products add up differently for every angle, and the axis has a length that is only nearly one.", "anchors": ["flut/math/quat.hpp: quat_from_axis_angle, quat_from_euler", "flut/math/angle.hpp: rad_value"]}
{"id": "C156", "title": "Axis and angle of a quaternion, within rounding", "statement": "For float and double, with every operation rounded and acos of the library within k units of rounding: axis_angle_from_quat of a quaternion whose imaginary part is longer than the threshold gives an axis close to the direction of the imaginary part and an angle whose half is within k units of the arc cosine of the real part; for a shorter one it gives the first axis and zero. rotation_vector_from_quat gives the direction times the angle within 4 k + 68 units, or zero. Making the quaternion again with quat_from_axis_angle works and gives nearly the same quaternion, the angle of every normalised quaternion is a number, and the angle of a small rotation is nearly right.", "quantifier": "all quaternions of float or double values, all libraries of the given accuracy", "why_tests_cant": "acos is not stable near one, rounded quaternions may have a real part above one, and the axis goes through another format.", "anchors": ["flut/math/quat.hpp: axis_angle_from_quat, rotation_vector_from_quat, quat_from_axis_angle"]}
{"id": "C157", "title": "The rotation from one direction to another is right, within rounding", "statement": "For float and double, with every operation rounded and sin, cos and acos of the library within k units of rounding: quat_from_directions of two vectors returns a quaternion close to a unit quaternion that takes the direction of the first vector to the direction of the second one, turning by the angle between them about the vector at right angles to both; for a vector and itself it returns the identity; for opposite vectors it returns a half of a turn that takes one to the other.", "quantifier": "all pairs of vectors of float or double values that are neither too short to be normalised nor so long that their squares overflow, all libraries of the given accuracy", "why_tests_cant": "How much of the vector product and of the inner product is rounding error depends on the angle between the vectors, and the two special cases are recognised by comparing rounded numbers with one and zero.", "anchors": ["flut/math/quat.hpp: quat_from_directions", "flut/math/vec3.hpp: normalized, cross_product, dot_product, length", "flut/math/math.hpp: equals"]}
{"id": "C158", "title": "Pitch, yaw and roll are read from a quaternion right, within rounding", "statement": "For float and double, with every operation rounded and atan2 of the library within k units of rounding: euler_from_quat of a quaternion close to a unit quaternion returns the angle at which the rotation puts the second axis in the plane of the second and third axes (pitch), the third axis in the plane of the third and first axes (yaw) and the first axis in the plane of the first and second axes (roll), each as exactly as the distance of the axis from the remaining one permits. For a rotation about one axis made by quat_from_euler, in any order, the angle and two zeros are read back.", "quantifier": "all quaternions of float or double values within a thousandth of a unit quaternion, all libraries of the given accuracy, all angles in degrees or radians, all six orders", "why_tests_cant": "How much of the two numbers given to atan2 is rounding error depends on the rotation, and near the poles and at half turns small errors change the angle completely.", "anchors": ["flut/math/quat.hpp: euler_from_quat, pitch, yaw, roll, quat_from_euler"]}
{"id": "C159", "title": "Vectors from polar coordinates are right, within rounding", "statement": "For float and double, with every operation rounded and sin and cos of the library within k units of rounding: vec3_from_polar returns a vector close to the one with the given length, the given inclination from the second axis and the given azimuth from the third axis towards the first one, and its length is close to the given radius, with errors in proportion to the radius.", "quantifier": "all radii up to half of the largest number, positive or negative, all finite angles in degrees or radians, all libraries of the given accuracy", "why_tests_cant": "The error has to be in proportion to the radius for all radii and angles, also where the conversion of large angles from degrees loses accuracy.", "anchors": ["flut/math/vec3.hpp: vec3_from_polar", "flut/math/angle.hpp: sin, cos, rad_value"]}
{"id": "C160", "title": "Linear regression with a fixed step is right, within rounding", "statement": "For float and double, with every operation rounded: the form of linear_regression that takes a first position and a step returns a line whose slope and intercept are close to those of the line of least squares through the values at the evenly spaced positions, although each position is found by adding the step to the one before and the sum of squares comes from a closed formula. The errors are in proportion to the unit of rounding, the number of values, the largest position and the largest value. For one value, or none, what is returned is not a number.", "quantifier": "all finite first positions and values, all steps whose third power, also times the third power of the number of values, is neither too large nor too small for the format, all numbers of values from two to a thousandth of the precision", "why_tests_cant": "Rounding errors of the stepped positions add up over any number of values, and the closed formula has intermediate results that overflow or vanish for steps at which all input and the answer are ordinary numbers.", "anchors": ["flut/math/linear_regression.hpp: linear_regression( x_begin, x_step, cy )", "flut/container_tools.hpp: average"]}
{"id": "C161", "title": "A class registered without a name is made under its own name", "statement": "clean_type_name returns the name of a class without its namespaces, and never a colon or a space. After any registrations of classes with a factory without giving names, create with the name of a class makes an object of the class of that name that was registered last; if no two classes have the same name, each can be made under its name. Each class in its own namespaces has a name of its own, and so has each class made from a template.", "quantifier": "all names and nested namespaces, all sequences of registrations", "why_tests_cant": "The name is cut out of text that the compiler makes, for classes a test does not know, and the registrations of one program interact.", "anchors": ["flut/system_tools.cpp: clean_type_name", "flut/factory.hpp: register_class, create"]}
{"id": "C162", "title": "A smooth delayer in single precision is near an exact one", "statement": "For a smooth_delayer of float, after any number of samples, the output is near that of a smooth delayer with exact arithmetic whose delay is off by one rounding, given the same samples with steps that are off by at most two units of the window; the error does not grow with the number of samples. The clock is right to two units of the window for every sample, and a signal that stays the same comes out again after one window more than the delayer has places. This holds for all steps that are not longer than a window.", "quantifier": "all delays, initial values, numbers of places and sequences of finite samples and steps, of any length", "why_tests_cant": "Rounding errors of a running sum could add up over millions of samples; a test sees a few of them.", "anchors": ["flut/math/delayer.hpp: smooth_delayer"]}
{"id": "C163", "title": "Several programs can create folders at the same time", "statement": "If any number of programs or threads call create_unique_folder and create_directories at the same time, in any order of their system calls and while other programs add files and folders, then a folder that create_unique_folder returns, or for which create_directories returns true, is new, has one of the names asked for, and is not that of any other of these calls, also if they name it differently. If create_unique_folder throws, all names it may try are taken. copy_file without overwriting leaves a file alone that another program has just made, and load_string reads what a file held before or after it was replaced.", "quantifier": "all file systems, numbers of programs, arguments, working directories and interleavings of their system calls with one another and with calls of other programs that remove nothing", "why_tests_cant": "The result depends on the order of the calls of different programs, which a test cannot choose.", "anchors": ["flut/filesystem.cpp: create_unique_folder, create_directories, folder_exists, copy_file, load_string"]}
{"id": "C164", "title": "A file that is loaded while it is saved gives a beginning of what is saved", "statement": "If any number of programs or threads save the same tree to one file and others load it, in any order of the parts in which the streams read and write, then the file holds the tree when all have saved it. Who begins to load it when it does not exist, or holds this tree, or after saving has begun, reads a beginning of its text: load_xml throws or gives an empty tree or the tree that is saved, load_prop gives what is recovered from a beginning of the file, and so does load_ini if only one program saves it. A file that is not saved meanwhile is loaded completely. If the programs save different trees, or the file held another one, then who loads it gets one of them.", "quantifier": "all trees, former contents of the file, numbers of programs that save and load it, sizes of the parts and interleavings of their system calls, including programs that never go on", "why_tests_cant": "Which parts of a file are read depends on the order of the calls of different programs and on the buffers of the streams, which a test cannot choose.", "anchors": ["flut/prop_node_tools.cpp: save_prop, save_xml, save_ini, load_prop, load_xml, load_ini", "flut/filesystem.cpp: load_string"]}
{"id": "C165", "title": "What only looks at memoize, factory, dictionary and random generator objects can run in several threads", "statement": "Several threads can use memoize, factory, dictionary and random_number_generator objects without locks: create and has_type of a factory, names and elements of a dictionary, and memoize for an argument it was called with before, may happen in all threads at the same time, and everything else on objects that belong to one thread. Then there is no data race, and each thread gets the answers that it would get alone, whatever the schedule and the other threads. If all calls are made under a lock, any thread can make any call: a memoized function is called once for each argument, and all threads get its values. Calls of one object from several threads are safe.", "quantifier": "all memoized functions, states of the objects at the beginning, numbers of threads, programs of the threads that decide by the answers what to call next, and interleavings of their accesses", "why_tests_cant": "A race shows only for some schedules, and a test sees one; memoize looks like a function, but changes its object.", "anchors": ["flut/memoize.hpp: memoize::operator()", "flut/math/random.hpp: random_number_generator, rand_uni", "flut/factory.hpp: factory", "flut/dictionary.hpp: dictionary"]}
{"id": "C166", "title": "An iir_filter, a circular_deque and a dynarray can be given their own elements", "statement": "Functions that take a reference do the same for a reference into the object itself as for a copy of the value. An iir_filter can be given its last output or its last input, such as f( f() ) and f( f( x ) ), as often as one likes and mixed with other values: it returns and remembers what it would for copies, also bit for bit in floating point. push_back( d[ i ] ) and push_front( d[ i ] ) of a circular_deque add a copy of that element. A reference to the first or last element stays usable while it is popped and pushed at the other end, so a deque that is not empty can be turned any number of times in both directions, even if it is full, without growing or undefined behaviour. dynarray::assign( a[ i ] ) sets all elements to the old a[ i ].", "quantifier": "all filters and their states, sizes and sequences of arguments; all histories of a deque, elements and sequences of turns; all arrays and indices", "why_tests_cant": "Whether the argument is read before or after it is overwritten depends on which element it is and where the buffer wraps around; a test tries few of them.", "anchors": ["flut/filter.hpp: iir_filter::operator()", "flut/circular_deque.hpp: push_back, push_front, pop_front, pop_back, front, back", "flut/dynarray.hpp: assign"]}
{"id": "C167", "title": "min_element, max_element, find, find_if and find_index find the first match", "statement": "For every container, min_element and max_element return an iterator to the first smallest and the first largest element, and the end exactly if the container is empty; find_if returns the first element that satisfies the predicate, find and find_index the first that is equal, or the end and no_index if there is none. For floating-point numbers all this holds too: infinities are the smallest and the largest, the two zeros are equal, and elements that are not a number are skipped.", "quantifier": "all containers of linearly ordered elements or floating-point numbers, predicates and values", "why_tests_cant": "Ties, zeros of either sign, infinities and elements that are not a number can be anywhere in a container of any length.", "anchors": ["flut/container_tools.hpp: min_element, max_element, find, find_if, find_index"]}
{"id": "C168", "title": "A build without assertions does the same as long as no assertion fails", "statement": "In a build with FLUT_USE_ASSERT 0, every history of a circular_deque or of the labels of a storage, table or frame buffer in which no assertion would have failed has the same effect and the same results as with assertions, and so do at, operator[], operator() and add_frame of storages, tables and frame buffers, and children of a prop_node by index. Where an assertion would have failed, misuse is still noticed.", "quantifier": "all histories of operations, with sizes below 2^63 for deques, and all states and indices", "why_tests_cant": "Tests run with assertions; what other builds do where one would fail depends on sizes that wrap around and on what is behind an index.", "anchors": ["flut/system/assert.hpp: flut_assert", "flut/circular_deque.hpp: circular_deque", "flut/buffer/data_header.hpp: data_header", "flut/storage.hpp: at, operator[], add_frame", "flut/table.hpp: operator()", "flut/buffer/circular_frame_buffer.hpp: at", "flut/prop_node.hpp: get_child, get_key"]}
{"id": "C169", "title": "A build without exceptions ends the program on an error, and only then", "statement": "In a build with FLUT_USE_EXCEPTIONS 0, where at of flat_map or dynarray, get_child of a prop_node, create of a factory, a dictionary, lookup, load_string or bounds from a prop_node would have thrown its own error, the message of that error is shown and the program ends; where it would have returned, it returns the same and shows nothing.", "quantifier": "all containers, keys, indices, nodes, tables, names and files", "why_tests_cant": "Tests are built with exceptions; in the other build the macros expand to other statements in every place they are used.", "anchors": ["flut/system/assert.hpp: FLUT_EXCEPTION, flut_error, flut_error_if", "flut/flat_map.hpp: at", "flut/dynarray.hpp: at", "flut/prop_node.hpp: get_child", "flut/factory.hpp: create", "flut/dictionary.hpp: operator(), lookup", "flut/math/bounds.hpp: bounds( const prop_node& )", "flut/filesystem.cpp: load_string"]}
{"id": "C170", "title": "Vectors and angles of floating-point numbers are compared by their numbers", "statement": "With float and double, two vectors are equal exactly if all their components are numbers of the same value, != is the opposite of ==, equality can be turned around and chained, a vector equals itself exactly if no component is NaN, and equal vectors have the same length to the last bit. Of two angles that are not NaN exactly one of <, == and > holds, and <=, >= and != are their opposites. Vectors of finite numbers have distance 0 exactly if they are equal.", "quantifier": "all vectors and angles of float and double values, with infinities, NaN and both zeros", "why_tests_cant": "Zeros of either sign, infinities and NaN combine in too many ways for examples, and which differences are rounded away depends on all the bits.", "anchors": ["flut/math/vec3.hpp: operator==, operator!=, distance, length", "flut/math/vec3_type.hpp: is_null", "flut/math/angle.hpp: operator<, operator>, operator<=, operator>=, operator==, operator!="]}
{"id": "C171", "title": "Text and elements that are handed out without a copy can be used later", "statement": "The pointer of from_str< const char* > or path::c_str has the text of the string it was given, and the reference of a dictionary with a default has the value of the element with the name, or of the default if there is none, whatever the program does afterwards with other strings.", "quantifier": "all programs that make, change and destroy strings before and after, all texts, all dictionaries", "why_tests_cant": "Using a pointer to a string that is gone often works in a test and fails when the memory is used for something else.", "anchors": ["flut/system/string_cast.hpp: string_cast< const char* >", "flut/string_tools.hpp: from_str", "flut/system/path.hpp: c_str", "flut/dictionary.hpp: operator()( const string&, const T& )"]}
{"id": "C172", "title": "Angles given as whole numbers are the angles they say", "statement": "deg( n ) and rad( n ) with an int n are the angles of n degrees and n radians: converting them to another unit or type, adding them, multiplying and dividing them by numbers, comparing them with other angles and taking their sine and cosine does what it does for these angles.", "quantifier": "all int values, all real factors, both units", "why_tests_cant": "The result depends on where a value is cut off to a whole number, for every value and every factor.", "anchors": ["flut/math/angle.hpp: angle_, deg, rad, sin, cos", "flut/math/math.hpp: deg_to_rad, rad_to_deg, constants::pi"]}
{"id": "C173", "title": "Averages, medians and means of whole numbers are right up to the digits behind the point", "statement": "For numbers of type int, average, median, compute_channel_means and compute_covariance give the mean, the median, the means of the channels and the mean products of differences from these, without the digits behind the point.", "quantifier": "all vectors of int of any size below 2^31, all storages of int", "why_tests_cant": "Signs, sizes and the order in which sums overflow combine; a wrong result needs the right number of frames.", "anchors": ["flut/container_tools.hpp: average, median", "flut/buffer/data_algorithms.hpp: compute_channel_means, compute_covariance"]}
{"id": "C174", "title": "Whole numbers are wrapped to a range", "statement": "For int and unsigned int and lower < upper, wrap and wrapped give the number from lower to below upper that differs from the given one by a multiple of upper - lower.", "quantifier": "all numbers and ranges whose differences are in the range of the type", "why_tests_cant": "Signs, widths and types without sign give different results; only some combinations are wrong.", "anchors": ["flut/math/math.hpp: wrap, wrapped"]}
{"id": "C175", "title": "Vectors of whole numbers", "statement": "For vectors of int, sums and multiples are exact, the length is the Euclidean one without the digits behind the point, dividing by a whole number divides the components, and normalized gives a vector of the same direction or leaves short vectors alone.", "quantifier": "all vectors of int and all whole factors for which the results are in range", "why_tests_cant": "The templates accept every type; what they give for int depends on where a fraction is cut off.", "anchors": ["flut/math/vec3.hpp: operator+, operator*, operator/, length, squared_length, normalize, normalized", "flut/math/math.hpp: inv"]}
{"id": "C176", "title": "Polynomials, running differences and soft limits of whole numbers", "statement": "For whole numbers, a polynomial gives the sum of its coefficients times the powers of the argument whenever this is in range, or modulo 2^32 for numbers without sign; what delta returns adds up to the values it was given; soft_clamp gives the nearest number in the range.", "quantifier": "all coefficients, degrees and arguments; all sequences of values; all ranges and values", "why_tests_cant": "Where an intermediate result overflows depends on the degree, the argument and every coefficient.", "anchors": ["flut/math/polynomial.hpp: polynomial::operator()", "flut/math/delta.hpp: delta", "flut/math/math.hpp: soft_clamp, soft_clamped, limit_transfer"]}
