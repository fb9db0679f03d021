{"id": "C01", "title": "Merge sort returns the stable sorted permutation", "statement": "M_sort_mergesort leaves the array holding exactly the elements it held before, in non-decreasing comparator order, with comparator-equal elements kept in their original relative order.", "quantifier": "every array length, every element content, every comparator that is a total preorder", "why_tests_cant": "the input space of arrays and comparators is infinite; split/merge boundary mistakes only show for particular lengths and tie patterns", "anchors": ["base/sort/m_sort_mergesort.c:M_sort_mergesort"]}
{"id": "C02", "title": "Quick sort returns a sorted permutation", "statement": "M_sort_qsort leaves the array holding exactly the elements it held before, in non-decreasing comparator order, never touching memory outside the array.", "quantifier": "every array length and content, every total-preorder comparator", "why_tests_cant": "pivot selection, three way partition and small-array paths interact with tie patterns that no finite set of arrays covers", "anchors": ["base/sort/m_sort_qsort.c:M_sort_qsort"]}
{"id": "C03", "title": "Binary search finds a matching element iff one exists", "statement": "On an array sorted by the comparator, M_sort_binary_search succeeds exactly when some element compares equal to the key, and the index returned is in range and compares equal; with stable search it is the first such index.", "quantifier": "every sorted array, key and total-preorder comparator", "why_tests_cant": "off-by-one and midpoint errors depend on length, key position and duplicates", "anchors": ["base/sort/m_sort_binary.c:M_sort_binary_search"]}
{"id": "C04", "title": "Binary insertion position keeps the array sorted", "statement": "Inserting an element at the index returned by M_sort_binary_insert_idx keeps a sorted array sorted; the index is at most the length; with stable_insert the index is after every equal element.", "quantifier": "every sorted array, element and total-preorder comparator, stable or not", "why_tests_cant": "boundary errors appear only for some lengths, tie positions and flags", "anchors": ["base/sort/m_sort_binary.c:M_sort_binary_insert_idx"]}
{"id": "C05", "title": "An unsorted list behaves as a sequence", "statement": "After any history of insert, insert_at, remove_at, take_at, first/last variants, remove_range, swap and replace_at the list reads back (len, at, first, last) as the mathematical sequence obtained by applying the same edits, and no operation touches a slot outside the allocation.", "quantifier": "every finite history of operations and every argument value", "why_tests_cant": "internal compaction, growth and shrink decisions depend on the whole history", "anchors": ["base/list/m_list.c:M_list_insert_at", "base/list/m_list.c:M_list_remove_at", "base/list/m_list.c:M_list_grow", "base/list/m_list.c:M_list_shrink", "base/list/m_list.c:M_list_swap"]}
{"id": "C06", "title": "A sorted list is always sorted and loses nothing", "statement": "After any history of insert/insert_at-rejections/remove on a sorted list its elements are in comparator order and are the multiset union of the inserted minus the removed elements.", "quantifier": "every operation history, every total-preorder comparator", "why_tests_cant": "depends on ties and on the whole history", "anchors": ["base/list/m_list.c:M_list_insert", "base/list/m_list.c:M_list_change_sorting"]}
{"id": "C07", "title": "A stack list is last-in first-out with index 0 at the top", "statement": "On a list created as a stack, insert pushes on top, at(i) is the i-th most recent element, take_first pops the most recent, insert_at(i) places the value at logical index i and remove_range(s,e) removes logical positions s..e.", "quantifier": "every operation history and index", "why_tests_cant": "index reversal has to be right for every combination of index and length", "anchors": ["base/list/m_list.c:M_list_convert_idx_at", "base/list/m_list.c:M_list_convert_idx_insert", "base/list/m_list.c:M_list_remove_range"]}
{"id": "C08", "title": "remove_duplicates leaves one of each and removes nothing else", "statement": "M_list_remove_duplicates leaves exactly one element of every equivalence class (the first, on an unsorted list) in the original order and removes no element that had no duplicate.", "quantifier": "every list content and comparator", "why_tests_cant": "run-boundary mistakes depend on the run pattern", "anchors": ["base/list/m_list.c:M_list_remove_duplicates"]}
{"id": "C09", "title": "The hashtable is a finite map", "statement": "After any history of insert, get, remove on a hashtable (single value), lookup of a key returns the value of the latest insert not followed by a remove, num_keys is the number of distinct live keys, and neither the hash function, its collisions nor any resize changes this.", "quantifier": "every operation history, every hash function (arbitrary collisions), every initial size and fill percentage", "why_tests_cant": "chain splicing and rehash timing depend on collision patterns and history", "anchors": ["base/hash/m_hashtable.c:M_hashtable_insert_direct", "base/hash/m_hashtable.c:M_hashtable_get", "base/hash/m_hashtable.c:M_hashtable_remove", "base/hash/m_hashtable.c:M_hashtable_rehash_or_destroy"]}
{"id": "C10", "title": "Multi-value keys keep every value in order", "statement": "With multi-value keys each key keeps the sequence of inserted values (insertion order or sorted), multi_len/multi_get/multi_remove act on that sequence, and enumeration reports the number of values it then yields.", "quantifier": "every operation history", "why_tests_cant": "value bookkeeping depends on history", "anchors": ["base/hash/m_hashtable.c:M_hashtable_multi_remove", "base/hash/m_hashtable.c:M_hashtable_enumerate"]}
{"id": "C11", "title": "Enumeration yields every entry exactly once", "statement": "Enumerating an unmodified hashtable returns every (key,value) exactly once and then stops; ordered tables return keys in insertion order (or sorted order).", "quantifier": "every table reachable by any history", "why_tests_cant": "bucket and chain traversal must be right for every shape", "anchors": ["base/hash/m_hashtable.c:M_hashtable_enumerate", "base/hash/m_hashtable.c:M_hashtable_enumerate_next"]}
{"id": "C12", "title": "The cache is an exact LRU of bounded size", "statement": "After any history of insert/get/remove/set_max_size the cache holds at most max_size keys, they are the most recently used ones, get returns the last value inserted for that key, and the evicted key is always the least recently used.", "quantifier": "every operation history and every max_size", "why_tests_cant": "eviction order depends on the whole history", "anchors": ["base/cache/m_cache.c:M_cache_insert", "base/cache/m_cache.c:M_cache_get", "base/cache/m_cache.c:M_cache_set_max_size"]}
{"id": "C13", "title": "The queue holds each member once and serves them in order", "statement": "M_queue never holds a member twice, exists agrees with membership, take_first returns members in insertion order (or in comparator order, FIFO among equals), and remove/take remove exactly the given member.", "quantifier": "every operation history", "why_tests_cant": "two containers (list and lookup hash) must stay consistent through every history", "anchors": ["base/data/m_queue.c:M_queue_insert", "base/data/m_queue.c:M_queue_remove", "base/data/m_queue.c:M_queue_take_first"]}
{"id": "C14", "title": "Linked list pointer structure stays consistent", "statement": "After any history of insert/insert_before/insert_after/remove/take/move on an unsorted linked list, following next from first and prev from last visits the same len() nodes in opposite orders and the contents equal the mathematical sequence; no freed node is reachable.", "quantifier": "every operation history and node choice, circular or not", "why_tests_cant": "pointer surgery at head/tail/only-node positions depends on history", "anchors": ["base/list/m_llist.c:M_llist_insert_before", "base/list/m_llist.c:M_llist_remove_node", "base/list/m_llist.c:M_llist_set_first"]}
{"id": "C15", "title": "base64 decode inverts encode", "statement": "Decoding the base64 encoding of any byte string (with any line wrap) returns the same bytes, and the size predictors are upper bounds for what is written.", "quantifier": "every byte string of every length and every wrap width", "why_tests_cant": "lengths mod 3 and newline placement interact; infinite inputs", "anchors": ["base/bincodec/m_base64.c:M_base64_encode", "base/bincodec/m_base64.c:M_base64_decode"]}
{"id": "C16", "title": "base32 decode inverts encode", "statement": "Decoding the base32 encoding of any byte string returns the same bytes.", "quantifier": "every byte string and every wrap width", "why_tests_cant": "lengths mod 5 and wrap placement interact", "anchors": ["base/bincodec/m_base32.c:M_base32_encode", "base/bincodec/m_base32.c:M_base32_decode"]}
{"id": "C17", "title": "hex decode inverts encode", "statement": "Decoding the hex encoding of any byte string (with any line wrap) returns the same bytes; inputs with an odd number of hex digits are rejected.", "quantifier": "every byte string and wrap width", "why_tests_cant": "newline parity interacts with the length check", "anchors": ["base/bincodec/m_hex.c:M_hex_encode", "base/bincodec/m_hex.c:M_hex_decode"]}
{"id": "C18", "title": "Binary decoders never read or write outside their buffers", "statement": "For any input text and length, and any output size, the base64/base32/hex decoders read only the given input and write only within the given output.", "quantifier": "every input string, length and output size", "why_tests_cant": "memory safety must hold for all malformed inputs", "anchors": ["base/bincodec/m_base64.c:M_base64_decode", "base/bincodec/m_base32.c:M_base32_decode", "base/bincodec/m_hex.c:M_hex_decode"]}
{"id": "C19", "title": "UTF-8 encode and decode are inverse on valid code points", "statement": "M_utf8_from_cp followed by M_utf8_get_cp returns the same code point and consumes exactly the bytes written; every successful decode yields a valid code point in shortest form; surrogates, overlong forms and values above 10FFFF are rejected.", "quantifier": "every code point and every byte string", "why_tests_cant": "1.1 million code points and unbounded malformed byte strings", "anchors": ["base/utf8/m_utf8.c:M_utf8_get_cp", "base/utf8/m_utf8.c:M_utf8_from_cp", "base/utf8/m_utf8.c:M_utf8_is_valid_cp"]}
{"id": "C20", "title": "UTF-8 string indexing agrees with the code point sequence", "statement": "On a valid UTF-8 string M_utf8_cnt is the number of code points, M_utf8_cp_at(i) is the i-th code point when i is smaller than the count and an error otherwise.", "quantifier": "every valid string and index", "why_tests_cant": "index/length boundary over all strings", "anchors": ["base/utf8/m_utf8.c:M_utf8_cnt", "base/utf8/m_utf8.c:M_utf8_cp_at"]}
{"id": "C21", "title": "Wildcard matching decides the documented pattern language", "statement": "M_str_pattern_match(pattern, s) is true exactly when s belongs to the language of pattern (literal, ?, *, bracket sets with ranges and negation, backslash escapes), and always terminates.", "quantifier": "every pattern and every string", "why_tests_cant": "the pair space is infinite and backtracking errors are input specific", "anchors": ["base/data/m_str_patmatch.c:M_str_pattern_match"]}
{"id": "C22", "title": "Integer parsing is exact and detects overflow", "statement": "M_str_to_uint64_ex returns SUCCESS with the mathematical value of the digit string in the given base when it fits 64 bits, OVERFLOW when it does not, and reports the first unconsumed character.", "quantifier": "every string, length and base", "why_tests_cant": "64-bit overflow patterns are too many to sample", "anchors": ["base/data/m_str_num.c:M_str_to_uint64_ex", "base/data/m_str_num.c:M_str_to_uint64_int"]}
{"id": "C23", "title": "Signed and narrower integer parsing respect their ranges", "statement": "M_str_to_int64_ex / uint32 / int32 / uint16 ... return the exact value when in range, saturate with OVERFLOW otherwise.", "quantifier": "every string and base", "why_tests_cant": "range edges times bases times lengths", "anchors": ["base/data/m_str_num.c:M_str_to_int64_ex", "base/data/m_str_num.c:M_str_to_uint32_ex"]}
{"id": "C24", "title": "Decimal comparison is the numeric order", "statement": "M_decimal_cmp(a,b) returns -1/0/1 exactly according to the numeric order of the two decimals.", "quantifier": "every pair of decimals", "why_tests_cant": "rescaling overflow depends on value magnitude and exponent difference", "anchors": ["base/math/m_decimal.c:M_decimal_cmp"]}
{"id": "C25", "title": "Decimal add, subtract and multiply are exact when they report success", "statement": "When M_decimal_add/subtract/multiply return SUCCESS the result equals the exact mathematical result.", "quantifier": "every pair of decimals", "why_tests_cant": "overflow and rescale combinations", "anchors": ["base/math/m_decimal.c:M_decimal_add", "base/math/m_decimal.c:M_decimal_subtract", "base/math/m_decimal.c:M_decimal_multiply"]}
{"id": "C26", "title": "Calendar conversion is a bijection", "statement": "Converting any time_t to broken-down UTC (M_time_togm) gives a valid calendar date/time and converting back (M_time_fromgm) gives the same time_t.", "quantifier": "every 64-bit time within the representable year range", "why_tests_cant": "leap-year and era boundaries over billions of days", "anchors": ["base/time/m_time_gm.c:M_time_togm", "base/time/m_time_gm.c:M_time_fromgm"]}
{"id": "C27", "title": "Out-of-range calendar fields normalise arithmetically", "statement": "M_time_fromgm of fields with overflowing seconds/minutes/hours/months/days equals the date advanced by that many units.", "quantifier": "every field combination", "why_tests_cant": "carry interactions over unbounded fields", "anchors": ["base/time/m_time_gm.c:M_time_fromgm", "base/time/m_time_gm.c:M_time_normalize_tm"]}
{"id": "C28", "title": "Bit buffer contents are the appended bits", "statement": "After any history of M_bit_buf appends, reading the buffer with M_bit_parser returns exactly the appended bits in order followed only by the zero padding of the last byte.", "quantifier": "every append history and alignment", "why_tests_cant": "alignment and partial byte interactions over all histories", "anchors": ["base/data/m_bit_buf.c:M_bit_buf_add_bytes", "base/data/m_bit_buf.c:M_bit_buf_add_bit", "base/data/m_bit_parser.c:M_bit_parser_read_bit"]}
{"id": "C29", "title": "Bit parser reads stay in bounds and consume what they return", "statement": "Every M_bit_parser read of n bits succeeds iff n bits remain, returns those bits, advances by n, and never reads past the source.", "quantifier": "every source, position and length", "why_tests_cant": "unaligned edge conditions for every offset", "anchors": ["base/data/m_bit_parser.c:M_bit_parser_read_bytes", "base/data/m_bit_parser.c:M_bit_parser_read_uint"]}
{"id": "C30", "title": "The byte buffer is a byte queue", "statement": "After any history of add, truncate, drop and merge, M_buf_peek/M_buf_len show exactly the bytes added minus those dropped from the front and truncated from the back, and never write outside the allocation.", "quantifier": "every operation history", "why_tests_cant": "growth and consumed-prefix compaction depend on history", "anchors": ["base/data/m_buf.c:M_buf_add_bytes", "base/data/m_buf.c:M_buf_drop", "base/data/m_buf.c:M_buf_truncate", "base/data/m_buf.c:M_buf_merge"]}
{"id": "C31", "title": "The parser exposes the appended stream and rewinds exactly to its mark", "statement": "After any history of append/consume/mark/rewind/truncate the parser's remaining bytes are the appended stream minus what was consumed; rewinding to a mark restores the remaining bytes at the time of marking plus later appends; offset, line and column are those of the stream position.", "quantifier": "every operation history", "why_tests_cant": "buffer compaction under marks depends on history", "anchors": ["base/data/m_parser.c:M_parser_append", "base/data/m_parser.c:M_parser_consume", "base/data/m_parser.c:M_parser_mark_rewind"]}
{"id": "C32", "title": "Boundary search finds the first occurrence", "statement": "M_parser_consume_until / consume_boundary stop at the first occurrence of the pattern and report found exactly when the pattern occurs.", "quantifier": "every data and pattern", "why_tests_cant": "self-overlapping patterns are unbounded", "anchors": ["base/data/m_parser.c:M_parser_consume_boundary", "base/data/m_parser.c:M_parser_consume_until", "base/mem/m_mem.c:M_mem_mem"]}
{"id": "C33", "title": "Bit list names round-trip", "statement": "Listing a bit set and parsing the result returns the same set.", "quantifier": "every table and every flag set", "why_tests_cant": "2^64 flag sets and all tables", "anchors": ["base/data/m_bitlist.c:M_bitlist_list", "base/data/m_bitlist.c:M_bitlist_parse"]}
{"id": "C34", "title": "Bit tricks equal their arithmetic meaning", "statement": "is_power_of_two, round up/down to power of two, log2, sign extension and popcount equal their mathematical definitions for every 8/16/32/64-bit word.", "quantifier": "every machine word", "why_tests_cant": "2^64 inputs", "anchors": ["base/math/m_bithacks.c:M_uint64_is_power_of_two", "base/math/m_bithacks.c:M_uint64_round_up_to_power_of_two", "base/math/m_bithacks.c:M_uint64_log2"]}
{"id": "C35", "title": "Table CRC equals the polynomial definition", "statement": "The table driven CRC functions equal bit-at-a-time polynomial division for every message.", "quantifier": "every message of every length", "why_tests_cant": "messages are unbounded", "anchors": ["base/mem/m_mem.c:M_mem_calc_crc16_ccitt", "base/mem/m_mem.c:M_mem_calc_crc32"]}
{"id": "C36", "title": "Memory search returns the first match and equality is exact", "statement": "M_mem_mem returns the leftmost occurrence or NULL; M_mem_eq is true exactly on identical bytes; M_mem_cmpsort is a total order compatible with equality.", "quantifier": "every pair of buffers", "why_tests_cant": "unbounded inputs", "anchors": ["base/mem/m_mem.c:M_mem_mem", "base/mem/m_mem.c:M_mem_eq", "base/mem/m_mem.c:M_mem_cmpsort"]}
{"id": "C37", "title": "Byte swapping is an involution giving network order", "statement": "M_hton*/M_ntoh* are mutually inverse and M_hton* lays the value out most significant byte first.", "quantifier": "every 16/32/64-bit value", "why_tests_cant": "2^64 inputs", "anchors": ["base/mem/m_endian.c:M_swap64", "base/mem/m_endian.c:M_hton64"]}
{"id": "C38", "title": "The thread pool runs every dispatched task exactly once", "statement": "While the pool is up, every task dispatched is executed exactly once, no task is executed twice, the queue never exceeds its maximum, the number of threads never exceeds the maximum, and parent_wait returns only when all that parent's tasks have finished.", "quantifier": "every interleaving of any number of threads and dispatchers, including spurious wakeups and idle timeouts", "why_tests_cant": "schedules are unbounded", "anchors": ["thread/m_threadpool.c:M_threadpool_queue_fetch", "thread/m_threadpool.c:M_threadpool_queue_insert", "thread/m_threadpool.c:M_threadpool_parent_wait"]}
{"id": "C39", "title": "The emulated rwlock excludes writers from everyone else", "statement": "At any moment either no thread holds the lock, or one writer, or only readers.", "quantifier": "every interleaving of any number of threads, with spurious wakeups", "why_tests_cant": "schedules are unbounded", "anchors": ["thread/m_thread_rwlock_emu.c:M_thread_rwlock_emu_lock_read", "thread/m_thread_rwlock_emu.c:M_thread_rwlock_emu_lock_write", "thread/m_thread_rwlock_emu.c:M_thread_rwlock_emu_unlock"]}
{"id": "C40", "title": "The emulated rwlock never loses a wakeup", "statement": "Whenever the lock is free and threads are waiting for it, some thread can still make progress (no reachable state has only sleeping waiters and a free lock).", "quantifier": "every interleaving", "why_tests_cant": "lost wakeups need rare interleavings", "anchors": ["thread/m_thread_rwlock_emu.c:M_thread_rwlock_emu_unlock"]}
{"id": "C41", "title": "Every pipeline task is finished exactly once, in order", "statement": "Each task accepted by a pipeline has its finish callback called at most once, a task reaches step k+1 only after succeeding in step k, successful tasks finish in insertion order, and the count of outstanding tasks equals accepted minus finished.", "quantifier": "every interleaving, task outcome and pipeline length", "why_tests_cant": "schedules are unbounded", "anchors": ["thread/m_thread_pipeline.c:pipeline_thread_cb", "thread/m_thread_pipeline.c:pipeline_finish_step", "thread/m_thread_pipeline.c:M_thread_pipeline_task_insert"]}
{"id": "C42", "title": "Shutting a pipeline down completes", "statement": "After M_thread_pipeline_destroy is called, if running task callbacks return, every outstanding task is finished and destroy returns.", "quantifier": "every interleaving", "why_tests_cant": "requires a particular blocked step at shutdown time", "anchors": ["thread/m_thread_pipeline.c:M_thread_pipeline_destroy", "thread/m_thread_pipeline.c:pipeline_finish_step"]}
{"id": "C43", "title": "Pipeline results distinguish failure from abort", "statement": "The finish callback gets FAIL exactly for a task whose own step callback failed and ABORT for tasks dropped because of another failure or shutdown.", "quantifier": "every interleaving and outcome", "why_tests_cant": "needs specific failing step positions", "anchors": ["thread/m_thread_pipeline.c:pipeline_finish_step"]}
{"id": "C44", "title": "Event timers fire in due order and the right number of times", "statement": "Timers due at a processing pass fire in order of due time, never before they are due, at most fire_count times, and a stopped or removed timer does not fire.", "quantifier": "every set of timers and every history of start/stop/reset/process", "why_tests_cant": "timing and callback reentrancy", "anchors": ["io/m_event_timer.c:M_event_timer_process", "io/m_event_timer.c:M_event_timer_start"]}
{"id": "C45", "title": "CSV written by the library parses back to the same table", "statement": "Parsing the text produced by the CSV writer yields the same cells (an empty cell reads back as missing).", "quantifier": "every rectangular table and every delimiter/quote choice", "why_tests_cant": "cell content is unbounded; quoting interactions", "anchors": ["formats/csv/m_csv.c:add_cell", "formats/csv/m_csv.c:M_csv_parse_inplace", "formats/csv/m_csv.c:M_csv_remove_quotes"]}
{"id": "C46", "title": "CSV parsing is memory safe on any text", "statement": "For every text, the row/column counting pass and the splitting pass agree, so that no cell is stored outside the allocated matrix and the header row has num_cols cells.", "quantifier": "every byte string, delimiter and quote", "why_tests_cant": "malformed text is unbounded", "anchors": ["formats/csv/m_csv.c:M_csv_parse_count", "formats/csv/m_csv.c:M_csv_parse_inplace"]}
{"id": "C47", "title": "JSON strings round-trip", "statement": "Reading the JSON text written for a string gives back the same string.", "quantifier": "every valid UTF-8 string and writer flag set", "why_tests_cant": "unbounded strings", "anchors": ["formats/json/m_json_writer.c:M_json_write_node_string", "formats/json/m_json_reader.c:M_json_read_string"]}
{"id": "C48", "title": "JSON documents round-trip", "statement": "Reading the text written for a JSON document gives back an equal document.", "quantifier": "every document of any depth", "why_tests_cant": "documents are unbounded trees", "anchors": ["formats/json/m_json_writer.c:M_json_write", "formats/json/m_json_reader.c:M_json_read"]}
{"id": "C49", "title": "The JSON reader accepts only JSON", "statement": "Text accepted by M_json_read (comments disallowed) is a JSON text of the grammar.", "quantifier": "every byte string", "why_tests_cant": "malformed text is unbounded", "anchors": ["formats/json/m_json_reader.c:M_json_read_array", "formats/json/m_json_reader.c:M_json_read_object"]}
{"id": "C50", "title": "Punycode decode inverts encode", "statement": "Decoding the punycode encoding of any valid string returns that string.", "quantifier": "every valid Unicode string for which encoding succeeds", "why_tests_cant": "state machine over unbounded strings", "anchors": ["text/textcodec/m_textcodec_punycode.c:M_textcodec_encode_punycode", "text/textcodec/m_textcodec_punycode.c:M_textcodec_decode_punycode"]}
{"id": "C51", "title": "Percent decode inverts encode", "statement": "For each URL/form variant decoding the percent encoding of any text returns that text, and the encoding contains only URL-safe ASCII.", "quantifier": "every NUL-free byte string and every variant", "why_tests_cant": "unbounded strings", "anchors": ["text/textcodec/m_textcodec_percent.c:M_textcodec_encode_percent", "text/textcodec/m_textcodec_percent.c:M_textcodec_decode_percent"]}
{"id": "C52", "title": "Quoted-printable decode inverts encode and lines stay short", "statement": "Decoding the quoted-printable encoding of any text returns that text and no encoded line exceeds 76 characters.", "quantifier": "every NUL-free byte string", "why_tests_cant": "unbounded strings; line length accounting", "anchors": ["text/textcodec/m_textcodec_quoted_printable.c:M_textcodec_encode_quoted_printable", "text/textcodec/m_textcodec_quoted_printable.c:M_textcodec_decode_quoted_printable"]}
{"id": "C53", "title": "A set list never holds two equal elements", "statement": "A list created with the value-set flag never contains two elements that the equality callback considers equal, and an insertion is refused exactly when an equal element is present.", "quantifier": "every sequence of insert, insert_at, grouped insert, take, remove, remove_range, remove_val and replace_at calls, sorted or not, every total-preorder comparator", "why_tests_cant": "uniqueness is an invariant over unbounded histories; the lookup behind it is a binary or linear search depending on mode and on open insertion groups", "anchors": ["base/list/m_list.c:M_list_insert_at_int", "base/list/m_list.c:M_list_replace_at", "base/list/m_list.c:M_list_index_of"]}
{"id": "C54", "title": "Merging and duplicating hashtables", "statement": "Merging one hashtable into another leaves the destination as if every pair of the source had been inserted into it, and a duplicate returns the same values in the same order for every key.", "quantifier": "every pair of tables reached by any history of calls, every lawful hash and comparison", "why_tests_cant": "quantifies over unbounded histories and table sizes, including rehashing while merging", "anchors": ["base/hash/m_hashtable.c:M_hashtable_merge", "base/hash/m_hashtable.c:M_hashtable_duplicate"]}
{"id": "C55", "title": "Decimal division", "statement": "Dividing two decimal numbers and getting a success code means the returned decimal times the divisor is exactly the dividend; an inexact quotient is reported as truncation and a zero divisor as invalid.", "quantifier": "every pair of decimal numbers (any 64-bit significand, any number of decimals) and every rounding mode", "why_tests_cant": "the digits after the point are produced by two scaling loops whose iteration counts depend on both operands; only particular operand ranges overflow the intermediate products", "anchors": ["base/math/m_decimal.c:M_decimal_divide", "base/math/m_decimal.c:M_decimal_div_int64"]}
{"id": "C56", "title": "Splitting loses nothing and stays within its array", "statement": "M_parser_split_pat yields the sections between the first, next, ... occurrences of a nonempty pattern: joining them with the pattern gives the remaining bytes back, no section but the last of a limited split contains the pattern, at most the given number is returned, and the array is never overrun.", "quantifier": "every data, pattern, limit and flag combination", "why_tests_cant": "two passes over the data must agree for every input", "anchors": ["base/data/m_parser.c:M_parser_split_pat", "base/data/m_parser.c:M_parser_consume_until"]}
{"id": "C57", "title": "Framed messages are delivered whole and only with the right checksum", "statement": "Reading an STX/ETX/LRC message returns exactly the bytes between the framing characters and consumes exactly the frame; success is reported only if the checksum is right; without a frame nothing is consumed.", "quantifier": "every data and every choice of framing characters in the checksum", "why_tests_cant": "all messages", "anchors": ["base/data/m_parser.c:M_parser_read_stxetxlrc_message", "base/mem/m_mem.c:M_mem_calc_lrc"]}
{"id": "C58", "title": "Scans take the longest run", "statement": "M_parser_consume_predicate_max, consume_charset, consume_not_charset, consume_whitespace and consume_eol consume exactly the longest run of bytes of their class (within the limit given).", "quantifier": "every data, class and limit", "why_tests_cant": "all inputs", "anchors": ["base/data/m_parser.c:M_parser_consume_predicate_max", "base/data/m_parser.c:M_parser_consume_charset", "base/data/m_parser.c:M_parser_consume_whitespace", "base/data/m_parser.c:M_parser_consume_eol"]}
{"id": "C59", "title": "String comparison", "statement": "Equality, prefix and suffix tests hold exactly when the strings (with a length bound: their starts) agree byte by byte, up to ASCII case where asked; the case-insensitive search returns the first place where the needle occurs.", "quantifier": "all strings, all bounds", "why_tests_cant": "Equality must hold for every pair of strings; a prefix bug shows only for special lengths or bytes", "anchors": ["base/data/m_str.c:M_str_eq_max", "base/data/m_str.c:M_str_eq_start", "base/data/m_str.c:M_str_eq_end", "base/data/m_str.c:M_str_casestr"]}
{"id": "C60", "title": "Bounded string copies", "statement": "Copying or appending to a destination of given size never writes outside it, always terminates it, and stores the longest prefix that fits.", "quantifier": "all destinations, sizes and sources", "why_tests_cant": "Off-by-one at every size", "anchors": ["base/data/m_str.c:M_str_cpy", "base/data/m_str.c:M_str_cpy_max", "base/data/m_str.c:M_str_cat"]}
{"id": "C61", "title": "Trimming a string", "statement": "Trimming removes exactly the longest run of white space at each end and nothing else.", "quantifier": "all strings", "why_tests_cant": "Needs every position of white space", "anchors": ["base/data/m_str.c:M_str_trim"]}
{"id": "C62", "title": "Quoting and unquoting", "statement": "Unquoting a quoted string returns the original; quoting only if necessary leaves plain strings alone.", "quantifier": "all strings and all quote and escape characters", "why_tests_cant": "Every arrangement of quotes and escapes", "anchors": ["base/data/m_str.c:M_str_quote_max", "base/data/m_str.c:M_str_unquote_max", "base/data/m_str.c:M_str_quote_if_necessary"]}
{"id": "C63", "title": "Splitting a string", "statement": "Splitting by a delimiter returns the unique list of delimiter-free parts that joined by the delimiter give the string, within the allocated array.", "quantifier": "all strings and delimiters", "why_tests_cant": "Every arrangement of delimiters", "anchors": ["base/data/m_str.c:M_str_explode"]}
{"id": "C64", "title": "Joining and splitting with quotes", "statement": "Splitting a string joined from parts with quotes and escapes returns the parts, within the allocated array.", "quantifier": "all lists of strings, all quote, escape and delimiter characters", "why_tests_cant": "Quotes, escapes and delimiters in every arrangement, and every limit on the number of parts", "anchors": ["base/data/m_str.c:M_str_explode_quoted", "base/data/m_str.c:M_str_implode"]}
{"id": "C65", "title": "Replacing in a string", "statement": "Replacing a substring replaces exactly the occurrences met from left to right and keeps the rest; replacing a set of characters replaces exactly its members.", "quantifier": "all strings, patterns and replacements", "why_tests_cant": "Occurrences at every position", "anchors": ["base/data/m_str.c:M_strdup_replace_str", "base/data/m_str.c:M_strdup_replace_charset"]}
{"id": "C66", "title": "Keeping or dropping delimited sections", "statement": "Keeping or removing quoted or bracketed sections works in place, inside the string, and leaves exactly the bytes inside or outside the sections.", "quantifier": "all strings and delimiters", "why_tests_cant": "Every nesting and every unbalanced string", "anchors": ["base/data/m_str.c:M_str_keep_quoted", "base/data/m_str.c:M_str_remove_quoted", "base/data/m_str.c:M_str_keep_bracketed", "base/data/m_str.c:M_str_remove_bracketed"]}
{"id": "C67", "title": "Wrapping text into lines", "statement": "Wrapping splits text into lines of at most the requested length without losing or reordering anything but the white space at which it breaks.", "quantifier": "all texts, widths and line counts", "why_tests_cant": "Every position of white space relative to the width", "anchors": ["base/data/m_str.c:M_str_explode_lines"]}
{"id": "C68", "title": "Percent decoding is exact", "statement": "With the failing error handler, decoding succeeds exactly on ASCII texts in which every percent sign is followed by two hex digits, and then returns each escape as its byte, in the form variants each plus as a space, and every other byte unchanged; with any handler decoding never reads outside the text.", "quantifier": "every byte string, every variant, every error handler", "why_tests_cant": "unbounded strings, every position of an escape", "anchors": ["text/textcodec/m_textcodec_percent.c:M_textcodec_decode_percent"]}
{"id": "C69", "title": "Decimal text round trip", "statement": "The text written for a decimal is its exact decimal notation, fits the buffer or is refused, and reads back as the same number.", "quantifier": "every 64 bit number, number of decimal places and buffer size", "why_tests_cant": "numbers and sizes cannot be enumerated", "anchors": ["base/math/m_decimal.c:M_decimal_to_str", "base/math/m_decimal.c:M_decimal_from_str"]}
{"id": "C70", "title": "Decimal parsing is exact", "statement": "A number in decimal notation that fits is read exactly, up to the first character that does not belong to it.", "quantifier": "every sign, digit string before and after the point, exponent, and following text", "why_tests_cant": "digit strings are unbounded", "anchors": ["base/math/m_decimal.c:M_decimal_from_str"]}
{"id": "C71", "title": "A certificate is accepted only for hosts it names", "statement": "Host verification accepts a host name exactly when one of the names of the certificate that the flags select covers it: equal apart from case, a leading star standing for one label if wildcards are allowed, or the same base domain if fuzzy matching is on; names holding a zero byte never count.", "quantifier": "every certificate name list, host name and flag combination", "why_tests_cant": "names are unbounded and accepting a wrong one is only visible on the name an attacker picks", "anchors": ["tls/m_tls_hostvalidate.c:M_tls_verify_host", "tls/m_tls_hostvalidate.c:M_tls_verify_host_match"]}
{"id": "C72", "title": "XML escaping is faithful", "statement": "Escaping text or an attribute value for XML gives text that, by the rules of XML, stands for exactly the original bytes and contains no character that would end the text or the value; unescaping gives back what such text stands for.", "quantifier": "every byte string without zero bytes", "why_tests_cant": "strings are unbounded; a reference split or doubled at some position is only seen on that string", "anchors": ["formats/xml/m_xml_entities.c:M_xml_entities_encode", "formats/xml/m_xml_entities.c:M_xml_entities_decode", "formats/xml/m_xml_entities.c:M_xml_attribute_encode", "formats/xml/m_xml_entities.c:M_xml_attribute_decode"]}
{"id": "C73", "title": "An XML document that is written is read back", "statement": "Reading the text written for an XML tree, with or without indentation, gives the same tree: names, attributes with their order and values, texts, comments, processing instructions and nesting.", "quantifier": "every document tree, every indentation setting", "why_tests_cant": "trees have no bound on depth or width, and names, values and texts interact with quoting, indentation and trimming", "anchors": ["formats/xml/m_xml_writer.c:M_xml_write", "formats/xml/m_xml_reader.c:M_xml_read"]}
{"id": "C74", "title": "Only properly nested XML is accepted", "statement": "If reading XML succeeds, the text read is a document: every start tag has its end tag, elements are nested as in the tree returned, there is one root element, names and attributes are those of the tags, and attribute names differ. Whatever the data, reading touches no memory outside it.", "quantifier": "every byte string, every combination of reader flags", "why_tests_cant": "the nesting has no bound, and a single accepted bad text or read outside is enough to break a user", "anchors": ["formats/xml/m_xml_reader.c:M_xml_read", "formats/xml/m_xml_reader.c:M_xml_read_tag_info"]}
{"id": "C75", "title": "Random generator has full period and jumps give disjoint streams", "statement": "A generator made by M_rand_create is never in the state of zeros, never gets there, and returns to its state only after 2^256-1 calls of M_rand; in that period every state but zero occurs once and every 64-bit number is returned 2^192 times (zero once less). M_rand_jump leaves the generator as 2^128 calls would, so generators made by repeated jumps do not meet within 2^128 calls each. Different seeds give different states.", "quantifier": "every seed, every state, every number of calls and jumps", "why_tests_cant": "The period is 2^256-1 and the jump stands for 2^128 calls: neither can be run, and a wrong jump constant or shift still gives plausible numbers.", "anchors": ["base/math/m_rand.c:M_rand", "base/math/m_rand.c:M_rand_jump", "base/math/m_rand.c:M_rand_create"]}
{"id": "C76", "title": "Random numbers in a range lie in it and are fair", "statement": "M_rand_range returns for every state and every range; the number lies in [min,max); over the period of the generator every number of the range is drawn from equally many outputs (the lower end from one less). An empty range gives its lower end. M_rand_str writes exactly the length asked for plus a zero byte, only characters of the set, and reads nothing outside the set.", "quantifier": "every state, every pair of bounds, every character set and length", "why_tests_cant": "Rejection of the tail is needed only for one in many draws and the bias it prevents is too small to see in samples; termination depends on the whole orbit.", "anchors": ["base/math/m_rand.c:M_rand_range", "base/math/m_rand.c:M_rand_str"]}
{"id": "C77", "title": "A dictionary that is written as text comes back", "statement": "Reading the text that M_hash_dict_serialize made, with the same delimiters, quote and escape character, inserts exactly the pairs of the dictionary in their order, for keys without delimiters and quotes and for any value, with or without trimming. Reading stays within its memory for any text, and a text without key/value delimiter is refused.", "quantifier": "all dictionaries, all delimiter, quote and escape characters, all flags, all texts that are read", "why_tests_cant": "Whether a value comes back depends on how the four characters meet inside it and on the flags; no sample of dictionaries covers the combinations.", "anchors": ["base/hash/m_hash_dict.c:M_hash_dict_serialize_buf", "base/hash/m_hash_dict.c:M_hash_dict_deserialize", "base/hash/m_hash_dict.c:M_hash_dict_fromstr_unquote", "base/hash/m_hash_dict.c:M_hash_dict_serialize_quotetype"]}
{"id": "C78", "title": "A normalized path leads to the same place", "statement": "M_fs_path_norm without following links gives a path in normal form (no empty parts, no '.', '..' only at the front of a relative path) that leads to the same place as the path given, from every current directory; with M_FS_PATH_NORM_HOME '~' leads to the home directory; with M_FS_PATH_NORM_ABSOLUTE the result is absolute and leads where the relative path leads from the current directory. A path in normal form is left alone. No memory outside a buffer is touched.", "quantifier": "all paths, both path styles, all current and home directories", "why_tests_cant": "Paths mix separators, dots, parents, drives and roots in any number and order; tests fix a few strings.", "anchors": ["base/fs/m_fs_path_norm.c:M_fs_path_norm", "base/fs/m_fs_path_norm.c:M_fs_path_norm_int", "base/fs/m_fs_path_norm.c:M_fs_path_norm_remove_parent", "base/fs/m_fs_path.c:M_fs_path_componentize_path", "base/fs/m_fs_path.c:M_fs_path_join_parts"]}
{"id": "C79", "title": "Directory, name and joining of paths", "statement": "M_fs_path_dirname is the directory and M_fs_path_basename the last name of the path: from every place, the directory followed by the name leads to where the path leads. M_fs_path_join leads to where the second path leads from where the first leads; an absolute second path leads there alone.", "quantifier": "all paths, both path styles for splitting, the Unix style for joining", "why_tests_cant": "Trailing and repeated separators, roots and drives combine freely; tests fix a few strings.", "anchors": ["base/fs/m_fs_path.c:M_fs_path_split", "base/fs/m_fs_path.c:M_fs_path_dirname", "base/fs/m_fs_path.c:M_fs_path_basename", "base/fs/m_fs_path.c:M_fs_path_join"]}
{"id": "C80", "title": "Following links leads to the real place", "statement": "M_fs_path_norm with M_FS_PATH_NORM_FOLLOWSYMLINK gives, if it succeeds, the place where the system would arrive from the path: every link met is replaced by its target, and '..' after a link goes up from the target. The result has no link in it. A path with less than 25 links is resolved unless a text is too long or the system gives an error; links that lead in a circle never give a result and always end.", "quantifier": "all file systems (any set of links), all paths, all current directories", "why_tests_cant": "The chain of links, their targets and the parents among them are unbounded; a test builds a few directories.", "anchors": ["base/fs/m_fs_path_norm.c:M_fs_path_norm_symlink", "base/fs/m_fs_path_norm.c:M_fs_path_norm_int", "base/fs/m_fs_path.c:M_fs_path_readlink_int"]}
{"id": "C81", "title": "The asynchronous writer delivers or counts every message", "statement": "A message that M_async_writer_write accepts is given to the write callback at most once as taken and in the order in which messages were accepted; the queue never holds more than the allowed number of bytes after a write; only the oldest messages are dropped and no more than needed for the new one. As long as the callback takes what it is given, every message that was accepted or was too big is, by the end of a writer that was destroyed, either taken or in a reported number of dropped messages; with flush all that were not dropped were taken; and every write comes back.", "quantifier": "all sequences of calls from any number of threads, all schedules of the internal thread, all answers of the callback, all messages and sizes", "why_tests_cant": "Messages are written, dropped, put back and counted by threads that interleave in any way; a test sees a few schedules.", "anchors": ["log/m_async_writer.c:M_async_writer_write", "log/m_async_writer.c:pop_one", "log/m_async_writer.c:replace_one", "log/m_async_writer.c:write_thread", "log/m_async_writer.c:M_async_writer_destroy"]}
{"id": "C82", "title": "The asynchronous writer passes on every command", "statement": "The write callback is given no command that was not asked for, and every command that M_async_writer_set_command accepted is given by the second call of the callback after it at the latest; forced commands are given before the internal thread goes to sleep, even if there is no message; M_async_writer_set_command_block comes back only after the callback was given the command.", "quantifier": "all sequences of calls, all schedules, all commands, all answers of the callback", "why_tests_cant": "A command can arrive at any point of the work of the internal thread; tests cannot place it at all of them.", "anchors": ["log/m_async_writer.c:M_async_writer_set_command", "log/m_async_writer.c:M_async_writer_set_command_block", "log/m_async_writer.c:pop_one", "log/m_async_writer.c:write_thread"]}
{"id": "C83", "title": "Starting, stopping and destroying the asynchronous writer", "statement": "If the writer is not started while it is being stopped, is destroyed while no other call is going on and is not used afterwards, then its memory is never used after it was given back, there is never more than one internal thread, and after it is gone no callback is called. No wake-up is lost: the internal thread sleeps only when the writer runs and the queue is empty. Without new calls it comes to rest, and callers that wait for it to stop come back.", "quantifier": "all sequences of calls that keep to these rules, all schedules, spurious wake-ups included", "why_tests_cant": "Use after free and lost wake-ups show only for particular interleavings.", "anchors": ["log/m_async_writer.c:M_async_writer_start", "log/m_async_writer.c:M_async_writer_stop", "log/m_async_writer.c:M_async_writer_destroy", "log/m_async_writer.c:M_async_writer_destroy_blocking", "log/m_async_writer.c:write_thread"]}
{"id": "C84", "title": "HTTP messages do not depend on how the stream is cut", "statement": "If a user of the streaming HTTP reader keeps the bytes it did not read and gives them again in front of the next piece, then for a message that is not multipart the result, the bytes left unread after the message, the state of the reader and the callbacks are the same however the stream is cut into pieces, but for how the data of a body or a chunk is divided among callbacks.", "quantifier": "all byte streams, valid or not, all ways to cut them into non-empty pieces, all callbacks that accept the data of bodies and chunks", "why_tests_cant": "A test uses a few messages and a few cuts; the number of cuts is exponential in the length and any byte may arrive last.", "anchors": ["formats/http/m_http_reader.c:M_http_reader_read", "formats/http/m_http_reader.c:M_http_read_header", "formats/http/m_http_reader.c:M_http_read_chunked", "formats/http/m_http_reader.c:M_http_read_body", "formats/http/m_http_reader.c:M_http_read_multipart"]}
{"id": "C85", "title": "The HTTP reader finds the extent of a message", "statement": "For every valid HTTP message within the limits of the reader, one call tells the user of the first line, of every header field with its values, of the body, chunks, chunk extensions and trailer fields exactly as they were sent and in that order, reports success and has read exactly the bytes of the message, whatever follows it. With a length the body has that many bytes; in chunks the body ends with the chunk of size zero and its trailer, and a length that is also given is ignored; a request without either ends with its header; the body of a response without either is everything that follows. Two lengths are refused. The same holds for the message in any pieces.", "quantifier": "all requests and responses, all lists of header and trailer fields in any order, all bodies, all lists of chunks with extensions, all bytes after the message, all ways to cut the stream", "why_tests_cant": "Tests read a few fixed messages; where a message ends has to be found for every combination of fields, sizes and following bytes, and a mistake there lets one message be read as two.", "anchors": ["formats/http/m_http_reader.c:M_http_reader_read", "formats/http/m_http_reader.c:M_http_read_header_validate_kv", "formats/http/m_http_reader.c:M_http_read_chunked", "formats/http/m_http_reader.c:M_http_read_body"]}
{"id": "C86", "title": "HTTP headers are kept", "statement": "The headers of an HTTP message after any sequence of M_http_set_header, M_http_add_header and M_http_remove_header (and after M_http_set_headers with a whole table) are those last set: names are compared without case, M_http_headers lists them in the order in which they were first set, and M_http_header gives each value back as it was given, with its parts and their modifiers, values that were added at the end.", "quantifier": "every sequence of operations; all header names; all values that are lists of different parts with modifiers of different names, written with the separators `, `, `; ` and `=`; every later lookup", "why_tests_cant": "The values are taken apart at commas, semicolons and equals signs, stored in nested tables and put together again on each read, so that whether a text comes back depends on every byte of it and on the history of the header.", "anchors": ["formats/http/m_http_header.c:M_http_header_update", "formats/http/m_http_header.c:M_http_header_value", "formats/http/m_http_headers.c:M_http_set_header_int", "formats/http/m_http_headers.c:M_http_set_headers_int", "formats/http/m_http_headers.c:M_http_header_int"]}
{"id": "C87", "title": "What the HTTP writers write is what the reader reads", "statement": "M_http_simple_write_request_buf and M_http_simple_write_response_buf, given valid headers, a type, a character set and data, write a message with exactly the headers given, one length that is the number of bytes of the data, one type with the character set, a date for the current time, and the data; M_http_reader_read accepts that message in whatever pieces it arrives, tells the first line, the headers and the body as they were given to the writer, and stops at its end.", "quantifier": "all requests and responses: every method, host, port, address, program, status code, reason, list of headers, type, character set, data and time; every way in which the message is cut into pieces; anything that follows it", "why_tests_cant": "That writer and reader agree on where a message ends is a property of all pairs of headers and data together; a test has one message, and the places where they disagree need line ends, a length or a coding in the right header.", "anchors": ["formats/http/m_http_simple_writer.c:M_http_simple_write_int", "formats/http/m_http_simple_writer.c:M_http_simple_write_request_buf", "formats/http/m_http_simple_writer.c:M_http_simple_write_response_buf", "formats/http/m_http_simple_writer.c:M_http_writer_get_date", "formats/http/m_http.c:M_http_code_to_reason"]}
{"id": "C88", "title": "Sorted linked list is a sorted sequence for every history", "statement": "After any history of insert, find, count, remove_val, remove_duplicates, take and walks on a linked list created with M_LLIST_SORTED, whatever random levels its nodes get, the values are in the order of the comparator, an insertion adds exactly the new value (behind those equal to it), find gives the first match by value or by pointer, counts and removals hit exactly the matches, duplicates keep their first occurrence, both walks meet the same len() nodes in opposite orders, and no freed node or link beyond the levels of a node is touched. A duplicate and a merge have the values of their sources.", "quantifier": "every operation history, every sequence of random numbers, every lawful comparator and value type", "why_tests_cant": "the links of every level depend on the whole history and on random numbers; tests see a few of the shapes", "anchors": ["base/list/m_llist.c:M_llist_insert_sorted", "base/list/m_llist.c:M_llist_find", "base/list/m_llist.c:M_llist_take_remove_node", "base/list/m_llist.c:M_llist_match_op_val_int", "base/list/m_llist.c:M_llist_remove_duplicates"]}
{"id": "C89", "title": "SQL transactions are atomic however often they are retried", "statement": "If M_sql_trans_process returns a success code, the database has committed exactly one run of the user's function, from begin to end and with the results that run saw, and nothing else; if it returns an error, nothing was committed. M_sql_stmt_execute with more than one bound row likewise. No transaction is left open and every connection goes back to the pool. A transaction is tried again only after a deadlock, a request of the user's function or a lost connection, and any other error is returned as it is.", "quantifier": "every user function (it may choose its statements from earlier results), every answer of driver and pool, every number of retries", "why_tests_cant": "which statements fail, when the connection is lost and how often a transaction is retried depend on other users of the database", "anchors": ["sql/m_sql_trans.c:M_sql_trans_process", "sql/m_sql_trans.c:M_sql_trans_begin", "sql/m_sql_trans.c:M_sql_trans_commit", "sql/m_sql_trans.c:M_sql_trans_rollback", "sql/m_sql_trans.c:M_sql_trans_execute", "sql/m_sql_stmt.c:M_sql_stmt_execute", "sql/m_sql_error.c:M_sql_error_is_rollback", "sql/m_sql_connpool.c:M_sql_conn_set_state_from_error"]}
{"id": "C90", "title": "SQL connection pool: bound, exclusive use, no leak, clean stop", "statement": "However many threads acquire and release connections, a pool never has more connections than its maximum (idle, in use and being made); no two threads have the same connection, and one in use is neither idle nor freed; a connection that is handed out has no error noted on it; each connection ever made is idle, in use or freed, and freed once; once M_sql_connpool_stop succeeds nobody has or waits for a connection and all are freed; a thread waits for a connection only while another thread has or is getting one, and an idle connection is not left while a thread waits for it.", "quantifier": "every number of threads, every interleaving, every failure to connect, every expiry", "why_tests_cant": "interleavings of acquire, release, failed connects and wake-ups cannot be enumerated by tests", "anchors": ["sql/m_sql_connpool.c:M_sql_connpool_acquire_conn", "sql/m_sql_connpool.c:M_sql_connpool_release_conn", "sql/m_sql_connpool.c:M_sql_connpool_get_unused_id", "sql/m_sql_connpool.c:M_sql_connpool_set_used", "sql/m_sql_connpool.c:M_sql_connpool_stop"]}
{"id": "C91", "title": "I/O buffer layer: streams kept, maxima respected, no lost wake-up", "statement": "Through a buffer layer, the application reads exactly the bytes that arrived, in order, and exactly the bytes it wrote are sent, in order, whatever pieces the layers below and above use; the layer never holds more than its maxima rounded up to powers of two; no call reaches outside of a buffer; while the layer has bytes to read the application was or will be told; while it has bytes to send it was or will be given the chance; a writer that was refused is told as soon as there is room; and bytes that wait below are asked for once there is room for them.", "quantifier": "every history of arrivals, events, reads and writes of any sizes, every pair of maxima", "why_tests_cant": "the growth of the buffer, the marks for full buffers and the order of events interact over whole histories", "anchors": ["io/m_io_buffer.c:M_io_buffer_process_read_cb", "io/m_io_buffer.c:M_io_buffer_process_write_cb", "io/m_io_buffer.c:M_io_buffer_read_cb", "io/m_io_buffer.c:M_io_buffer_write_cb", "io/m_io_buffer.c:M_io_add_buffer"]}
{"id": "C92", "title": "Formatted output shows what the format says", "statement": "For every format made of text and directives (flags, width, precision, size, conversion) and every fitting argument list, M_asprintf makes exactly the text that the documentation defines for it, and M_bprintf adds that text to the buffer. For every format at all, well formed or not, M_snprintf returns the length of the whole text, stores as much of it as fits, always terminates it and touches no byte behind the terminator; without room it only measures. M_dprintf and M_fprintf put out that text and return its length, or report an error.", "quantifier": "all formats, argument lists, buffer sizes, contents of memory, and answers of the system to writes", "why_tests_cant": "Formats, argument values, widths and buffer sizes are unbounded and combine freely; tests sample combinations, usually with room to spare.", "anchors": ["base/data/m_str_fmt.c:M_str_fmt_do_print", "base/data/m_str_fmt.c:M_vsnprintf", "base/data/m_str_fmt.c:M_vbprintf", "base/data/m_str_fmt.c:M_vdprintf", "include/mstdlib/base/m_fmt.h:M_snprintf"]}
{"id": "C93", "title": "Buffered files behave like plain files", "statement": "An open file given a buffer size behaves, for every history of reads, writes, seeks and flushes, like the same file without a buffer: each read gives the next bytes at the position and reports the end only at the end, each write puts its bytes at the position, a seek goes where it was asked to go or fails and changes nothing, and once a flush succeeds the disk holds exactly those bytes. Reading a whole file gives exactly its bytes or an error; writing a whole file leaves exactly the bytes given.", "quantifier": "every file content, buffer size, open mode, history of calls, and every way the operating system cuts reads and writes short or fails them", "why_tests_cant": "the buffer interacts with every interleaving of reads, writes and seeks and with every length at which the operating system cuts a transfer short; a test sees one file on one disk that never fails", "anchors": ["base/fs/m_fs_file.c:M_fs_file_read", "base/fs/m_fs_file.c:M_fs_file_write", "base/fs/m_fs_file.c:M_fs_file_seek", "base/fs/m_fs_file.c:M_fs_file_sync", "base/fs/m_fs_file.c:M_fs_file_close", "base/fs/m_fs_file.c:M_fs_file_read_bytes", "base/fs/m_fs_file.c:M_fs_file_write_bytes", "base/fs/m_fs_file_unx.c:M_fs_file_seek_sys"]}
{"id": "C94", "title": "Copying or moving a file never loses it", "statement": "Copying a file to another path ends, touches no other path, never overwrites unless asked to, and a copy that reports success holds exactly the bytes of the original. Moving a file, also to another device, ends with the whole content at the old path or at the new one whatever fails on the way, and success means it is at the new one only.", "quantifier": "every content, file system, overwrite mode, progress callback, and every failing or short open, read, write, rename and unlink", "why_tests_cant": "the loss needs a particular file length or a failure of the operating system between the copy and the delete; tests copy small files on a healthy disk", "anchors": ["base/fs/m_fs.c:M_fs_copy", "base/fs/m_fs.c:M_fs_copy_file", "base/fs/m_fs.c:M_fs_move", "base/fs/m_fs.c:M_fs_check_overwrite_allowed", "base/fs/m_fs_file.c:M_fs_file_close"]}
{"id": "C95", "title": "Local time in rule-based zones", "statement": "In a zone given by daylight saving rules (a POSIX TZ string or rule list), M_time_tolocal gives, for every instant, the calendar date and time at the offset in force: DST from the moment the clock showing standard time reaches the start of DST until the clock showing DST reaches its end, with the k-th (or k-th last) weekday of the month computed correctly in every year, in both hemispheres and on both sides of Greenwich; and M_time_fromlocal applied to the result gives the instant back, also in the hour that occurs twice.", "quantifier": "every zone, every instant, every year", "why_tests_cant": "A test samples some instants of some years of a few zones; wrong hours at change boundaries, weekday rules that fail in some years only, and whole classes of zones go unnoticed.", "anchors": ["base/time/m_time_tz_rule.c:M_time_tz_rule_change_to_time", "base/time/m_time_tz_rule.c:M_time_tz_rule_isdst", "base/time/m_time_tz_rule.c:M_time_tz_rule_adjust_tolocal", "base/time/m_time_tz_dst_rules.c:M_time_tz_dst_rules_get_rule", "base/time/m_time_local.c:M_time_fromlocal"]}
{"id": "C96", "title": "Local time in zones given by transitions", "statement": "In a zone given by a table of transitions (a TZif file), M_time_tolocal gives, for every instant, the date and time at the offset of the last transition that has taken place (before all of them, of the first one to standard time), and M_time_fromlocal applied to the result gives the instant back, also in the hour that occurs twice.", "quantifier": "every table of transitions, every instant", "why_tests_cant": "A test samples instants of a few zones; lookups at the exact instant of a transition, before the first one, and hours that occur twice depend on the table.", "anchors": ["base/time/m_time_tz_olson_transitions.c:M_time_tz_olson_transitions_get_transition", "base/time/m_time_tz_olson.c:M_time_tz_olson_adjust_fromlocal", "base/time/m_time_tz_olson.c:M_time_tz_olson_adjust_tolocal", "base/time/m_time_local.c:M_time_fromlocal"]}
{"id": "C97", "title": "State machines visit states as documented and clean up after them", "statement": "Whatever the callbacks do, a state machine visits its states in the documented order: first state first, then where each visit's status and next id lead (linear or explicit order, allowed transitions, PREV back over successes, CONTINUE at most once into a state per cycle), WAIT and PAUSE return to the caller and are taken up where they were left; once a visit finishes the machine no state is visited any more, the cleanup machines that are due are run in reverse order, each until it is over, the finishing status is returned, and the machine can be run again from the start; data passes unchanged from callback to callback", "quantifier": "every machine (any number of states, flags, allowed transitions, nesting depth), all callbacks as arbitrary functions of the user data, any number of runs with the caller changing the data in between", "why_tests_cant": "the order of visits depends on all statuses returned so far, the cleanup list and the continuation list; the number of histories is unbounded and tests follow a few scripted ones", "anchors": ["base/data/m_state_machine.c:M_state_machine_run", "base/data/m_state_machine.c:M_state_machine_run_cleanup", "base/data/m_state_machine.c:M_state_machine_insert_state", "include/mstdlib/base/m_state_machine.h:M_state_machine_status_t"]}
{"id": "C98", "title": "A state machine that is reset only cleans up", "statement": "Resetting a waiting machine with a reason makes the next runs visit no further state: they run the cleanups that are due, in reverse order and each until it is over, and return DONE; resetting without a reason makes the next run start at the first state without any cleanup", "quantifier": "every machine, every history of runs that ends waiting in a state of the machine, every reason", "why_tests_cant": "the machine can be waiting anywhere; what is due depends on the whole history", "anchors": ["base/data/m_state_machine.c:M_state_machine_reset", "base/data/m_state_machine.c:M_state_machine_run_cleanup"]}
{"id": "C99", "title": "Interleaved machines run in turns until all are over", "statement": "A visit of an interleaved state runs each machine that is not over exactly once, in order and on the same data; while one waits the visit ends with WAIT and the next visit goes on with exactly those that are not over; the pre function is called on entry only; the first error ends the visit unless errors are to be passed over, in which case all are run to the end and the first added error is the result; the post function gets the result and the machines are made ready for the next entry", "quantifier": "every list of interleaved machines with any behaviour, every number of rounds", "why_tests_cant": "which machines wait or fail in which round is arbitrary, so the number of schedules is unbounded", "anchors": ["base/data/m_state_machine.c:M_state_machine_run", "base/data/m_state_machine.c:M_state_machine_insert_sub_state_machine_interleaved"]}
{"id": "C100", "title": "Group inserts insert every row once and tell every caller the truth", "statement": "Whatever calls share a group insert, each row is inserted at most once; a call that gets an error has no row in the database; a call that gets success has its row in the database; and one commit only holds rows of calls with the same query", "quantifier": "any number of calls from any threads, any interleaving of their steps, any answers of the database to begin, execute and commit, any number of retries, spurious wake-ups", "why_tests_cant": "who joins before the group is closed, who runs it and who sleeps depends on the schedule; tests see a handful of schedules and no failing commit", "anchors": ["sql/m_sql_connpool.c:M_sql_stmt_groupinsert_prepare", "sql/m_sql_connpool.c:M_sql_connpool_close_groupinsert", "sql/m_sql_stmt.c:M_sql_stmt_execute"]}
{"id": "C101", "title": "Group inserts neither hang nor use freed statements", "statement": "As long as a call of a group insert is not over some call can go on, no statement is used after it was freed or freed twice, nobody can join a statement whose result was handed out, and when all calls are over every statement was freed", "quantifier": "any number of calls from any threads, any interleaving of their steps, any answers of the database, spurious wake-ups", "why_tests_cant": "lost wake-ups, deadlocks and use after free appear in rare interleavings only", "anchors": ["sql/m_sql_connpool.c:M_sql_stmt_groupinsert_prepare", "sql/m_sql_connpool.c:M_sql_connpool_close_groupinsert", "sql/m_sql_stmt.c:M_sql_stmt_execute", "sql/m_sql_stmt.c:M_sql_stmt_destroy"]}
{"id": "C102", "title": "Rewriting a query keeps its tokens", "statement": "The text sent to the database has the words and punctuation of the query in the same order, with one space where two words meet and no other white space; queries that differ only in white space between tokens are sent as the same text; only a blank query is refused; no token is created or joined and the text of strings stays", "quantifier": "every query, of any length", "why_tests_cant": "where white space may be dropped depends on both neighbours, in every combination; tests see a few well-formed statements", "anchors": ["sql/m_sql_driver_helper.c:M_sql_driver_queryformat", "sql/m_sql_driver_helper.c:M_sql_chr_nospaceneeded"]}
{"id": "C103", "title": "Every value reaches its placeholder", "statement": "For several rows the parenthesised group behind VALUES is repeated once per row, nested parentheses included, and the rest of the text stays; numbered placeholders count from 1 in the order of the question marks; each request has as many placeholders as values, and the value of row i and column k belongs to placeholder i*columns+k+1; a query without a complete VALUES group is refused", "quantifier": "every query, number of rows and driver", "why_tests_cant": "the repeated text and the numbering depend on the query, the rows and the batch size together", "anchors": ["sql/m_sql_driver_helper.c:M_sql_driver_queryformat", "sql/sqlite/mstdlib_sql_sqlite.c:sqlite_bind_params", "sql/mysql/mstdlib_sql_mysql.c:mysql_bind_params", "sql/postgresql/mstdlib_sql_postgresql.c:pgsql_bind_params"]}
{"id": "C104", "title": "Bound rows are sent once, in order, in batches within the limits", "statement": "A statement that succeeds has sent each bound row exactly once and in order, and the database accepted every batch; one that fails has sent a prefix of the rows, with every batch before the last one accepted, and reports the answer to the last one; execution ends; rows that do not fit the placeholders or differ in type are refused before anything is sent; no batch exceeds the limits of the database; an insert that inserted all its rows is reported as a success", "quantifier": "every number of rows and columns, every driver and limit, every answer of the database", "why_tests_cant": "batch boundaries depend on rows, columns and limits; a database failing at a given batch is rarely tested", "anchors": ["sql/m_sql_stmt.c:M_sql_conn_execute", "sql/m_sql_stmt.c:M_sql_conn_execute_rows", "sql/m_sql_driver_helper.c:M_sql_driver_stmt_bind_rows", "sql/mysql/mstdlib_sql_mysql.c:mysql_num_process_rows", "sql/sqlite/mstdlib_sql_sqlite.c:sqlite_num_process_rows", "sql/postgresql/mstdlib_sql_postgresql.c:pgsql_num_process_rows", "sql/odbc/mstdlib_sql_odbc.c:odbc_num_process_rows"]}
{"id": "C105", "title": "Prepared queries hold one statement and no strings", "statement": "A query is accepted exactly if, trimmed, it is not empty, holds no quote unless it creates a table, no terminator before its end and no unprintable character; then its placeholders are counted; otherwise the first offending character decides the error; the text sent has no text behind a terminator", "quantifier": "every query", "why_tests_cant": "the checks must hold wherever the character stands", "anchors": ["sql/m_sql_stmt.c:M_sql_stmt_prepare", "sql/m_sql_stmt.c:M_sql_stmt_prepare_query", "sql/m_sql_driver_helper.c:M_sql_driver_queryformat"]}
{"id": "C106", "title": "A PROXY protocol header arrives in any pieces", "statement": "When one side sends a PROXY protocol header (text or binary form) built from endpoints that were set, the other side, however the bytes of the header and of the data behind it are cut into reads, reports the same addresses, ports and family, or that the connection is not relayed, and as long as part of the header is missing it waits. The sending side writes the header exactly once, whatever partial writes happen, and reports the connection only when all of it was written.", "quantifier": "all endpoints, flags, headers with any extensions, data behind them, ways to cut the stream into reads, partial writes and event orders", "why_tests_cant": "the stream can be cut at every byte in exponentially many ways, and the faulty cuts depend on field lengths", "anchors": ["io/m_io_proxy_protocol.c:M_io_proxy_protocol_set_source_endpoints", "io/m_io_proxy_protocol.c:M_io_proxy_protocol_build_proxy_message", "io/m_io_proxy_protocol.c:M_io_proxy_protocol_process_inbound", "io/m_io_proxy_protocol.c:create_inbound_sm"]}
{"id": "C107", "title": "Only a PROXY protocol header is taken from the stream", "statement": "If an inbound PROXY protocol layer reports a connection, the stream began with a header of a form its flags allow, the reported endpoints are those of that header, and the application reads exactly the bytes behind it, in order and with none lost or added, whatever sizes it reads with; different ways to cut the same stream never lead to different results.", "quantifier": "all byte streams, all ways to cut them, all environments for address conversion, all sequences of reads", "why_tests_cant": "a bad stream is any stream that is not a header: a test can only try some", "anchors": ["io/m_io_proxy_protocol.c:M_io_proxy_protocol_read_cb", "io/m_io_proxy_protocol.c:M_io_proxy_protocol_process_inbound", "io/m_io_proxy_protocol.c:state_determine_version"]}
{"id": "C108", "title": "INI values follow the history of calls", "statement": "After any sequence of M_ini_kv_set, M_ini_kv_insert, M_ini_kv_add_key, M_ini_kv_remove, M_ini_kv_remove_vals and M_ini_kv_remove_val_at, M_ini_kv_get, M_ini_kv_len, M_ini_kv_get_vals and M_ini_kv_has_key report for every key the values that history left under that name, where names are compared without case and, if asked for, without blanks; every call returns whether it found what it needs; M_ini_kv_keys lists every key once under a name that finds it; M_ini_duplicate keeps all of it.", "quantifier": "all histories of calls, keys, values and both ways of treating blanks", "why_tests_cant": "histories are unbounded; spellings of one key, sections that come in through keys, and removals interact", "anchors": ["formats/ini/m_ini.c:M_ini_kv_set", "formats/ini/m_ini_kvs.c:M_ini_kvs_val_insert", "formats/ini/m_ini.c:M_ini_kv_keys", "formats/ini/m_ini.c:M_ini_duplicate", "formats/ini/m_ini.c:M_ini_kv_has_key"]}
{"id": "C109", "title": "Reading INI files", "statement": "M_ini_read never touches memory outside its arrays, whatever the text; and for every file of blank lines, comments, sections, keys and values, with white space anywhere it is allowed, quoted values holding any character, and comments behind values, the object has for every key the values the file gives it: the last one, or all of them in order when repeated keys are collected; names are compared without case and, if asked for, without blanks.", "quantifier": "all texts for the safety part; all settings, files, layouts, names and values for the meaning", "why_tests_cant": "the layouts, quoting and repetitions combine without bound; a test shows some files", "anchors": ["formats/ini/m_ini_reader.c:M_ini_read", "formats/ini/m_ini_reader.c:M_ini_explode_lines", "formats/ini/m_ini_reader.c:M_ini_reader_parse_kv", "formats/ini/m_ini_reader.c:M_ini_reader_parse_str"]}
{"id": "C110", "title": "An INI object that is written is read back with the same values", "statement": "Take an object created with M_ini_create, any sequence of M_ini_kv_set, insert, add_key, remove, remove_vals, remove_val_at and M_ini_write calls, and then write it once more: reading the text with the same settings gives an object in which every key has exactly the values, in the order, that the sequence of calls left under its name, whatever the spelling; values with quotes, line ends and blanks at their ends included if a quote character is set. Writing never changes the values of the object.", "quantifier": "all settings with distinct characters, all sequences of calls and writes, all keys and values that the format can hold", "why_tests_cant": "The writer updates a tree of elements in place over several writes, with removals, re-insertions and several values per key, and the text must be parsed back by a different piece of code; tests compare a few fixed files.", "anchors": ["formats/ini/m_ini_writer.c:M_ini_write", "formats/ini/m_ini_writer.c:M_ini_writer_update_tree", "formats/ini/m_ini_writer.c:M_ini_writer_tree_add_kv", "formats/ini/m_ini_reader.c:M_ini_read"]}
{"id": "C111", "title": "Command lines are parsed by the stated rules", "statement": "An option can be added exactly if it has a name, its names are made of the allowed characters and no earlier option has the same short name or (ignoring case) the same long name. Parsing a command line calls the callbacks of the options in the order in which they are written, each once, with the value that belongs to it converted to its type: a flag takes none, another option takes the part after = or else the next argument if that does not begin with a dash. Arguments after the options go to the other callback with their indexes, everything after -- does, and the first argument that breaks a rule (unknown option, missing value, value that cannot be converted, refused by a callback, option after another argument) ends the parsing with the matching error and is the one reported; nothing after it is looked at.", "quantifier": "every option object that can be made, every command line, and every answer of the callbacks, even depending on the history", "why_tests_cant": "the number of combinations of options, joined and separate values, flags and other arguments is unbounded; tests try single options", "anchors": ["base/data/m_getopt_parse.c:M_getopt_parse", "base/data/m_getopt_parse.c:M_getopt_parse_option_short", "base/data/m_getopt_parse.c:M_getopt_parse_option_verify_value", "base/data/m_getopt.c:M_getopt_append_option", "base/data/m_getopt.c:M_getopt_validate_long_opt"]}
{"id": "C112", "title": "A table behaves as a grid of cells under any history of operations", "statement": "Starting from a new table, after any sequence of inserting and removing columns and rows (also the empty ones), naming unnamed columns, inserting rows from dictionaries with either flag, setting and clearing cells by name or position, sorting rows by one or two columns and ordering columns: every result and count returned, every column name, every cell read by position or by name, and every column looked up by name (with or without regard to case) is what a plain grid of cells would give. Renaming a named column, taking another column's name, setting a dictionary into a missing row and sorting by column number do not behave this way, and neither does a table whose random identifiers repeat.", "quantifier": "all histories of operations, all names, values and positions, all lawful comparison functions, all sequences of distinct non-zero random numbers", "why_tests_cant": "Identifiers hidden behind positions, four hash tables that must agree, and operations that shift positions make every history a new case; tests try a few.", "anchors": ["formats/table/m_table.c:M_table_column_insert_at", "formats/table/m_table.c:M_table_cell_set", "formats/table/m_table.c:M_table_column_remove_empty_columns", "formats/table/m_table.c:M_table_row_insert_dict_at", "formats/table/m_table.c:M_table_column_sort_data", "include/mstdlib/formats/m_table.h:M_table_column_set_name"]}
{"id": "C113", "title": "Bandwidth shaping keeps to the rate, counts every byte, and wakes whoever it held back", "statement": "With a rate limit in burst mode, in every window of time shorter than the throttle period less the sample frequency, at most Bps * period bytes are read (or written) through the layer, whatever the calls and their times. With a latency set, two writes are never closer together than the latency. The reported total is the number of bytes moved. Without settings nothing is held back. A direction that is held back has a timer running that is due exactly when something is allowed again, not before; the user is then told, and the next read or write moves bytes. No history of calls uses a sample slot that does not exist.", "quantifier": "every sequence of reads, writes, settings, events and timer callbacks, every reading of a clock that does not run backwards (also within one call), every answer of the layer below, every window of time", "why_tests_cant": "The rate must hold for every window over every history of times and sizes; slots are dropped and reused by time, and errors show only at certain distances of milliseconds between calls.", "anchors": ["io/m_io_bwshaping.c:M_io_bwshaping_write_cb", "io/m_io_bwshaping.c:M_io_bwshaping_read_cb", "io/m_io_bwshaping.c:M_io_bwshaping_bwtrack_max_size", "io/m_io_bwshaping.c:M_io_bwshaping_set_timeout", "io/m_io_bwshaping.c:M_io_bwshaping_timer_cb", "io/m_io_bwshaping.c:M_io_bwshaping_get_totalbytes"]}
{"id": "C114", "title": "Regular expression search finds a match exactly when there is one, and the right one", "statement": "For every compiled pattern and every NUL-terminated text, a search succeeds exactly when the pattern matches some piece of the text, and never reads outside the text or its work arrays; the reported offsets belong to one way of matching; the match is the leftmost and the longest that starts there; M_re_eq_start and M_re_eq say whether a beginning, or the whole, of the text matches; M_re_matches returns the matches one after the other.", "quantifier": "All automata the pattern compiler can hand over (arbitrary states, transitions, character ranges, assertions, tags), all texts of code points of any length, all bytes behind the terminator.", "why_tests_cant": "Matching explores sets of states over all positions of the text; tests fix a few patterns and texts and cannot cover the interaction of alternatives, repetitions, assertions and competing matches.", "anchors": ["text/re/mtre/regexec.c:tre_tnfa_run_parallel", "text/re/mtre/regexec.c:tre_fill_pmatch", "text/re/mtre/regexec.c:mregexec", "text/re/m_re.c:M_re_search", "text/re/m_re.c:M_re_eq", "text/re/m_re.c:M_re_eq_start", "text/re/m_re.c:M_re_matches", "text/re/m_re_match.c:M_re_match_idx"]}
{"id": "C115", "title": "A compiled pattern matches exactly what the pattern says", "statement": "For every syntax tree of a pattern - characters and classes, alternatives, sequences, repetitions with any bounds, assertions - the automaton compiled from it accepts exactly the pieces of text the pattern describes, so that searching for the pattern finds something exactly when some piece of the text matches it; and filling the transition table stays within the memory allocated for it.", "quantifier": "All syntax trees of any size and nesting, all repetition bounds, all texts, both line modes.", "why_tests_cant": "A test fixes a few patterns; the numbering of states when repetitions are written out and the treatment of parts that can match nothing go wrong only for particular nestings.", "anchors": ["text/re/mtre/regcomp.c:tre_expand_ast", "text/re/mtre/regcomp.c:tre_copy_ast", "text/re/mtre/regcomp.c:tre_compute_nfl", "text/re/mtre/regcomp.c:tre_match_empty", "text/re/mtre/regcomp.c:tre_make_trans", "text/re/mtre/regcomp.c:tre_ast_to_tnfa", "text/re/mtre/regcomp.c:mregcomp"]}
{"id": "C116", "title": "A table of several types returns each value as stored and releases every pointer once", "statement": "A table that holds booleans, integers, strings, binary data and pointers under integer and string keys returns, for every key, the value stored there last, only as the type it was stored with; a call succeeds exactly when the key is usable and present as the call needs; the free function given with a pointer is called exactly when the value is replaced, removed with destruction, or the table is destroyed, once for each time it was stored, and never for a value that was removed without destruction; and destroying the table releases all memory it allocated for values.", "quantifier": "All sequences of insertions of every type, removals with and without destruction and a final destruction, all keys (with and without case folding), values, pointers and free functions.", "why_tests_cant": "A double release or a leak depends on the history of a key: replaced by another type, removed without destruction, refused; a test runs a few histories.", "anchors": ["base/hash/m_hash_multi.c:M_hash_multi_u64_insert_vp", "base/hash/m_hash_multi.c:M_hash_multi_str_insert_bin", "base/hash/m_hash_multi.c:M_hash_multi_u64_remove", "base/hash/m_hash_multi.c:M_hash_multi_destroy", "base/hash/m_hash_multi.c:M_hash_multi_create_object", "base/hash/m_hash_multi.c:M_hash_multi_destroy_object"]}
{"id": "C117", "title": "Replacing matches replaces every match by the expanded template and nothing else", "statement": "Substituting the matches of a regular expression in a text returns the text in which each match, taken from left to right, is replaced by the template with its references - backslash and one or two digits, or \\g<N> - replaced by what the match captured, references to groups that captured nothing by nothing, and every other backslash kept; text outside of matches is unchanged, replacing each match by itself returns the text, and listing all matches returns exactly the matched pieces in order. Nothing outside the text is read.", "quantifier": "All templates, texts, patterns and captures.", "why_tests_cant": "The template language is infinite and references interact with the following characters; a test tries a few templates on a few texts.", "anchors": ["text/re/m_re.c:M_re_sub", "text/re/m_re.c:M_re_sub_build_repl", "text/re/m_re.c:M_re_find_all", "text/re/m_re_match.c:M_re_match_idx", "base/data/m_parser.c:M_parser_read_uint_ascii"]}
{"id": "C118", "title": "File permissions: what is asked for is what is set", "statement": "Permission objects record for user, group and other (and for directory overrides) exact, added or removed permissions. The getters report the last thing said; a file created with an object gets exactly the permissions it sets or adds; permissions read from a path are those it has; applying an object to a path gives each class each permission as asked, keeps everything else, and changes owner and group only when set; a duplicate behaves as the original; merging two objects behaves as asking for one and then the other (modifiers being replaced), carries over the owner and group, and disposes of the second.", "quantifier": "every series of calls on an object, every permission mask, file mode, owner, and pair of objects", "why_tests_cant": "The result depends on three classes, three permissions, three types, overrides and the mode the file had before: tests set permissions on fresh files, where nothing has to be taken away.", "anchors": ["base/fs/m_fs_perms.c:M_fs_perms_merge", "base/fs/m_fs_perms.c:M_fs_perms_dup", "base/fs/m_fs_perms_unx.c:M_fs_perms_set_perms", "base/fs/m_fs_perms_unx.c:M_fs_perms_to_mode", "base/fs/m_fs_perms_unx.c:M_fs_perms_can_access", "base/fs/m_fs_info_unx.c:M_fs_info_mode_to_perms", "base/fs/m_fs_dir.c:M_fs_dir_mkdir_sys"]}
{"id": "C119", "title": "A JSON search expression finds exactly the nodes it selects", "statement": "M_json_jsonpath on a document and an expression made of steps (.name, .*, [*], [index], [start:end:step], lists of these separated by commas, and .. before a step) finds exactly the nodes the steps select one after another, each as often as it is selected and, without .., in the order of the document and of the listed items; negative indexes count from the end; counting down, start is exclusive and end inclusive; .. looks at a node and everything below it; nothing that is not part of the document is ever found, whatever the expression.", "quantifier": "every JSON document and every expression of any number of steps, every list of indexes and slices with 32 bit numbers, and (for the last part) every byte string as expression", "why_tests_cant": "documents and expressions are unbounded and the search is recursive in both at once; tests look at a few documents", "anchors": ["formats/json/m_json_jsonpath.c:M_json_jsonpath", "formats/json/m_json_jsonpath.c:M_json_jsonpath_search", "formats/json/m_json_jsonpath.c:M_json_jsonpath_search_array_offsets", "include/mstdlib/formats/m_json.h:M_json_jsonpath"]}
{"id": "C120", "title": "Tables written as CSV read back the same and loading CSV never mixes columns up", "statement": "Writing a table of named columns as CSV with a header and loading it into a new table gives the same columns, rows and values (an empty value coming back as no value). Loading CSV with a header into any table adds the columns it does not have yet at the right and each CSV row as a new row at the bottom with every value under its own name; without a header the rows are added as they are. Text that is not CSV is refused and the table is left alone.", "quantifier": "every table any sequence of calls can make, every text, every delimiter and quote, with and without header", "why_tests_cant": "tests load a few files; separators, quotes and line ends can be in any value, and the columns of table and file can overlap in any way", "anchors": ["formats/table/m_table_csv.c:M_table_load_csv", "formats/table/m_table_csv.c:M_table_write_csv", "base/data/m_buf.c:M_buf_add_str_quoted"]}
{"id": "C121", "title": "Domain names and email addresses are accepted exactly if they are well formed", "statement": "Whatever the string, the check of a domain name accepts exactly labels of 1 to 63 letters, digits and inner hyphens with dots between them, 253 characters at the most; the check of an email address accepts exactly an optional display name and a local part and domain with the documented limits; the check of a list accepts exactly up to 100 such addresses with one kind of delimiter outside of quotes between them. Nothing outside the string is read.", "quantifier": "every string without a zero byte and every delimiter type", "why_tests_cant": "a validator that lets one malformed class through is not seen by examples; quotes, escapes and brackets interact in unbounded ways", "anchors": ["text/verify/m_verify.c:M_verify_domain", "text/verify/m_verify.c:M_verify_email_address", "text/verify/m_verify.c:M_verify_email_address_list"]}
{"id": "C122", "title": "Merging INI files keeps what the user changed and takes what is new", "statement": "M_ini_merge of a current, a new and an original INI object decides every key by its values in the three: a key the user added or changed keeps the user's values; a key or value the user removed stays away; a key, or one value of a key with several, that only the new object has comes in; a value the user left at the original is replaced by the new one, and a key or value that the new object dropped goes, unless the conflict flag or the callback says otherwise, which is asked only when there are no flags. So if new and original agree, the result has exactly the values of the current object, and if current and original agree and there is no flag and no callback, those of the new one.", "quantifier": "All histories of calls that build the three objects, all keys in any spelling, all flags, all callbacks", "why_tests_cant": "A test has a few keys; the table has to hold for every combination of values and keys, with any number of them, and for any answer of the callback.", "anchors": ["formats/ini/m_ini_merger.c:M_ini_merge", "formats/ini/m_ini_merger.c:M_ini_merger_handle_keys", "formats/ini/m_ini_merger.c:M_ini_merger_handle_single_vals", "formats/ini/m_ini_merger.c:M_ini_merger_handle_multi_vals"]}
{"id": "C123", "title": "Thread local storage keeps threads apart and destroys each value once", "statement": "Whatever threads create keys, set and get values and end, in whatever order of their steps: no key is handed out twice and none is 0; setting a value succeeds exactly for keys that were handed out; a thread gets the value it set last under the key itself since it began, or NULL, never one of another thread; each value it replaced or cleared was passed to the destructor of the key once, in order, while the value it gets was not; once it ended all of its values were passed to their destructors, once each; and no destructor runs while the global lock is held.", "quantifier": "all numbers of threads, all sequences of calls, all interleavings of their steps", "why_tests_cant": "tests run few threads, in the orders the scheduler happens to choose; a lost, doubled or foreign value would need a certain order", "anchors": ["thread/m_thread_tls.c:M_thread_tls_key_create", "thread/m_thread_tls.c:M_thread_tls_setspecific", "thread/m_thread_tls.c:M_thread_tls_getspecific", "thread/m_thread_tls.c:M_thread_tls_purge_thread"]}
{"id": "C124", "title": "A hex dump shows every byte and can be read back", "statement": "For every data, line prefix, number of bytes per line and combination of flags, a hex dump ends and a reader that knows the flags recovers exactly the data from it: behind the header, if one was asked for, each line holds the next bytes as two digits in the case asked for, with the number of the bytes before it, the printable ones again as text, and the very last line is the number of all bytes; all lines have the same columns, as wide as those of the header, however many digits the numbers have.", "quantifier": "all data, prefixes, line lengths and flags", "why_tests_cant": "a test compares a few dumps with expected texts; alignment and completeness for every length, line length and number of digits cannot be enumerated", "anchors": ["base/data/m_str_hexdump.c:M_str_hexdump", "base/data/m_str_hexdump.c:M_str_hexdump_center", "base/data/m_buf.c:M_buf_add_uinthex", "base/data/m_buf.c:M_buf_add_uint_just"]}
{"id": "C125", "title": "Conversion between UTF-8 and code pages", "statement": "For each of the 28 code pages (ASCII, EBCDIC 037 and 500, Windows 874 and 1250 to 1258, ISO-8859-1 to -16), encoding a valid UTF-8 text writes for every character the byte the published mapping assigns to it, and for characters outside the page does what the error handler says: stop with an error, write a replacement, or leave the character out; the result tells which happened. Decoding is the mirror image. A text the page can represent survives encoding and decoding unchanged, bytes that are all assigned survive decoding and encoding, and ASCII text is unchanged in every page but EBCDIC. A text that is not valid UTF-8 is refused or cleaned as the handler says, without reading outside it; UTF-8 to UTF-8 conversion returns valid text unchanged and with the replacing handler yields valid text with one replacement for each invalid sequence.", "quantifier": "all code pages, all three error handlers, all texts (any sequence of code points or bytes, valid or not) of any length, whatever follows the terminator in memory", "why_tests_cant": "Tests convert a few short strings per page; they cannot cover every text, every combination of representable and unrepresentable characters, and every malformed sequence.", "anchors": ["text/textcodec/m_textcodec_cp_map.c:M_textcodec_encode_cp_map", "text/textcodec/m_textcodec_cp_map.c:M_textcodec_decode_cp_map", "text/textcodec/m_textcodec_utf8.c:M_textcodec_utf8_to_utf8", "text/textcodec/m_textcodec.c:M_textcodec_encode_int", "text/textcodec/m_textcodec.c:M_textcodec_decode_int", "text/textcodec/m_textcodec_int.h:M_UTF8_REPLACE", "text/textcodec/m_textcodec_cp037.c:cp_map"]}
{"id": "C126", "title": "Merging tables", "statement": "Merging one table of named columns into another adds the columns the destination does not have at its right and every row of the source at its bottom, in order, each value under its name and nothing elsewhere; rows that were there keep their values. If a column on either side has no name, merging is refused and the destination is as it was.", "quantifier": "every two tables reached by any history of calls, with names compared with or without case", "why_tests_cant": "The result depends on how the names of any two tables overlap and on the rows of both; tests merge a few tables.", "anchors": ["formats/table/m_table.c:M_table_merge", "formats/table/m_table.c:M_table_cell_set", "formats/table/m_table.c:M_table_row_insert"]}
{"id": "C127", "title": "Tables as JSON", "statement": "Loading an array of objects of strings into a table adds one row per object with the values of the object under their names, adds columns only for names the table does not have, and leaves other rows alone; any other document is refused and leaves the table as it was. A table that is written as JSON and loaded into a new table has the same values in the same rows under the same names. A table is written unless a column has no name.", "quantifier": "every table reached by any history of calls, every document, every text", "why_tests_cant": "Values meet names over all rows and objects, and objects may lack any of the names; tests load a few documents.", "anchors": ["formats/table/m_table_json.c:M_table_load_json", "formats/table/m_table_json.c:M_table_create_json", "formats/table/m_table_json.c:M_table_write_json"]}
{"id": "C128", "title": "Tables as Markdown", "statement": "A table with at least one column and one row, written as Markdown with any flags and loaded into a new table, gives the same column names in the same order and the same rows, where an empty value counts as none; a table without columns or rows is not written; a text of fewer than three lines is refused and leaves the table as it was. This needs names and values without pipes, line feeds and white space at their ends, and in a table of one column written without outer pipes a value in every row.", "quantifier": "every table made by any calls, every combination of the flags for pretty printing, outer pipes and Windows line ends, every supply of identifiers, every text of fewer than three lines", "why_tests_cant": "A test tries a few tables; padding, outer pipes, line ends and empty cells at the end of the last line combine in ways that only a proof over all tables covers, and values that look like markup must come back unchanged.", "anchors": ["formats/table/m_table_markdown.c:M_table_load_markdown", "formats/table/m_table_markdown.c:M_table_write_markdown", "formats/table/m_table_markdown.c:read_strip_framing_eol", "formats/table/m_table_markdown.c:write_determine_cell_widths"]}
{"id": "C129", "title": "Tags, names, lines and memory buffers of the log", "statement": "The sets of tags below, up to, above and from a tag on have exactly those tags. Whatever names are given to tags, each call is accepted or refused as it must be (a number that is no power of two, a name that another tag has in any case), a tag has the name last given to it, a name in any case leads back to its tag, and padded names all take the room of the longest one given so far. A message is taken apart into its lines. Every module that accepts the tag, has not expired and whose filter agrees gets each line once and in order, no other module gets anything, and expired modules are removed once one that accepts the tag is met. A memory buffer keeps whole messages in order up to the one that exceeds its size, none after it, and lasts for its time. Clearing the name of a tag must not read freed memory.", "quantifier": "every tag and bit, every history of naming calls, every message, every sequence of messages, sizes and times", "why_tests_cant": "A test names a few tags; that the two directions of the naming stay inverse through refusals and renames in any order, and that reading a freed name goes unnoticed on most allocators, is not seen by running a sample.", "anchors": ["log/m_log.c:M_log_set_tag_name", "log/m_log.c:M_log_get_tag", "log/m_log.c:M_log_all_tags_lt", "log/m_log.c:M_log_write", "log/m_log_membuf.c:log_write_cb", "log/m_log_membuf.c:log_check_cb"]}
