# ID | status | theorems | note
C01 | proved | Verif.Sort.mergesort_correct | all lists, all total-preorder comparators
C03 | proved | Verif.Sort.search_correct | includes absence of out of bounds reads and first-match for stable search
C04 | partial | Verif.Sort.insertIdx_sorted_partial, Verif.Sort.insertIdx_stable_partial, Verif.Sort.insertIdx_stable_fails | sortedness proved; the stability clause is false in the code (negation proved), only the last equal element can end up after the new one
C02 | proved | Verif.Qsort.qsort_correct, Verif.Qsort.qsort_section | permutation, order, no access outside the section, any length
C05 | partial | Verif.MList.list_is_sequence_partial, Verif.MList.insertAt_beyond_end_fails, Verif.MList.swap_out_of_bounds_fails, Verif.MList.swap_garbage_fails | every history whose insert_at / swap indices are in range; beyond that the code inserts before the last element or swaps with memory past the end (negations proved)
C06 | partial | Verif.MList.sorted_list_correct, Verif.MList.sorted_list_multiset, Verif.MList.index_of_correct, Verif.MList.count_correct, Verif.MList.removePtrAll_fails | value matching fully proved for all histories; removing all copies of a pointer from a sorted list deletes a wrong element (negation proved)
C07 | partial | Verif.MList.list_is_sequence_partial, Verif.MList.stack_insertAt_fails, Verif.MList.stack_removeRange_fails, Verif.MList.stack_removeRange_oob_fails, Verif.MList.stack_removeVal_fails | stack lists proved for insert, first/last/at, take, remove, replace; insert_at, remove_range and remove_val use unconverted indices (negations proved)
C08 | partial | Verif.MList.removeDuplicates_partial, Verif.MList.dedup_sorted_fails | unsorted lists, pointer and value matching; sorted lists lose non-duplicates (negation proved)
C53 | partial | Verif.MList.set_list_partial, Verif.MList.set_replaceAt_fails | all calls except replace_at; replace_at can create a duplicate (negation proved)
C09 | proved | Verif.Hash.hashtable_is_map, Verif.Hash.hashtable_correct | every history, every lawful hash and comparison, rehashing included; requested size at most 2^63
C10 | partial | Verif.Hash.hashtable_correct, Verif.Hash.announced_count_fails | every history of multi-value calls; only the number announced by an enumeration after multi_remove is wrong in the code (negation proved)
C11 | proved | Verif.Hash.hashtable_correct | every pair exactly once, in key order for ordered tables
C54 | partial | Verif.Hash.merge_correct, Verif.Hash.duplicate_correct | duplicate: for tables whose value lists are not sorted
C14 | partial | Verif.LList.llist_correct_partial, Verif.LList.duplicate_correct, Verif.LList.circular_remove_only_fails, Verif.LList.circular_removeAll_fails | every history on unsorted lists, plain and circular; removing the only node of a circular list and removing all matches from one are wrong in the code (negations proved); sorted lists are C88
C12 | partial | Verif.Cache.cache_is_lru_partial, Verif.Cache.valueDup_fails | every history, every bound, every lawful callbacks; with a value-duplicate callback the code stores a duplicate of the key (negation proved)
C13 | partial | Verif.Queue.queue_correct_partial | every history, every hash function; queues with a comparator are not covered
C15 | partial | Verif.Bincodec.base64_encode_correct, Verif.Bincodec.base64_decode_correct_partial, Verif.Bincodec.base64_roundtrip_partial, Verif.Bincodec.base64_roundtrip_unwrapped, Verif.Bincodec.base64_roundtrip_fails | encoder equals the RFC text for every input and width; round trip for all inputs except when the two pads land on different lines (negation proved)
C16 | partial | Verif.Bincodec.base32_encode_correct, Verif.Bincodec.base32_roundtrip_partial, Verif.Bincodec.base32_roundtrip_exact, Verif.Bincodec.base32_roundtrip_fails | exact when the length is a multiple of five; otherwise the decoder appends zero bytes (proved in general and by witness)
C17 | partial | Verif.Bincodec.hex_encode_correct, Verif.Bincodec.hex_decode_correct_partial, Verif.Bincodec.hex_decode_rejects, Verif.Bincodec.hex_roundtrip_partial, Verif.Bincodec.hex_roundtrip_fails, Verif.Bincodec.hex_odd_digits_fails | round trip exactly when the number of line breaks is even; odd digit counts are only rejected when the total length is odd (negations proved)
C18 | partial | Verif.Bincodec.hex_decode_safe, Verif.Bincodec.base64_decode_safe_partial, Verif.Bincodec.base64_decode_unsafe_iff, Verif.Bincodec.base64_decode_safe_fails, Verif.Bincodec.base32_decode_safe_partial, Verif.Bincodec.base32_decode_reads_past_fails, Verif.Bincodec.base32_decode_writes_past_fails | hex safe always; base64 unsafe exactly on all-whitespace input; base32 safe only with a terminator inside the given length (negations proved)
C19 | partial | Verif.Utf8.encode_correct, Verif.Utf8.decode_correct, Verif.Utf8.roundtrip_partial, Verif.Utf8.roundtrip_nul_fails, Verif.Utf8.decode_rejects, Verif.Utf8.decode_safe, Verif.Utf8.noncharacter_fails | encoder and decoder equal the RFC 3629 form for every code point; code point 0 is not advanced over, and the noncharacters of planes 10-15 are accepted (negations proved)
C20 | partial | Verif.Utf8.is_valid_correct, Verif.Utf8.cnt_correct, Verif.Utf8.cp_at_correct_partial, Verif.Utf8.cp_at_count_fails, Verif.Utf8.chr_at_correct_partial, Verif.Utf8.next_chr_correct | the index equal to the count succeeds with the last code point (negation proved)
C22 | partial | Verif.Num.uint64_exact_partial, Verif.Num.uint64_auto_base_partial, Verif.Num.uint64_overflow_missed_fails, Verif.Num.uint64_hex_prefix_fails | exact value and end pointer for every number below 2^64 in every base; OVERFLOW is never spurious but is missed for some numbers, and a 0x prefix followed by digits is not recognised (negations proved)
C23 | partial | Verif.Num.int64_exact_partial, Verif.Num.int64_overflow_missed_fails, Verif.Num.uint32_exact_partial, Verif.Num.int32_exact_partial | exact or saturated for every magnitude below 2^64; beyond that the 64-bit parser may miss the overflow (negation proved)
C21 | partial | Verif.PatMatch.match_correct_partial, Verif.PatMatch.malformed_no_match, Verif.PatMatch.escape_in_bracket_fails, Verif.PatMatch.case_range_fails | decides the language of every pattern built from literals, escapes, ?, * and bracket sets; malformed patterns match nothing; escapes of ] and \ inside brackets and case-insensitive letter ranges are wrong (negations proved)
C24 | partial | Verif.Decimal.cmp_correct_partial, Verif.Decimal.cmp_unaligned_fails | numeric order for every pair that has a common 64-bit representation; pairs that have none can be ordered wrongly (negation proved)
C25 | partial | Verif.Decimal.add_exact, Verif.Decimal.subtract_exact, Verif.Decimal.add_succeeds, Verif.Decimal.multiply_exact_partial, Verif.Decimal.multiply_decimals_fails, Verif.Decimal.add_undefined_fails | success means exact for add and subtract always, for multiply up to 127 decimals (beyond that negation proved); aligning INT64_MIN can be undefined behaviour (witness)
C55 | partial | Verif.Decimal.divide_exact_partial, Verif.Decimal.divide_rounding_fails, Verif.Decimal.divide_large_fails | success without rounding is exact when ten times the quotient fits; otherwise, and with a rounding mode, success may come with a wrong value (negations proved)
C26 | proved | Verif.Time.togm_correct, Verif.Time.fromgm_togm, Verif.Time.togm_fromgm, Verif.Time.togm_next, Verif.Time.togm_epoch, Verif.Time.isValidDay_iff | every time is broken down to the calendar date denoting it and converted back; unbounded integers, so times within one minute of INT64_MIN (absolute value overflow) are outside the model
C27 | partial | Verif.Time.fromgm_carries_partial, Verif.Time.fromgm_year_of_days_fails | every field combination whose month is January or whose carried days stay below one year; with more days the wrong year length can be used (negation proved)
C28 | partial | Verif.Bits.history_partial, Verif.Bits.written_is_read_partial, Verif.Bits.updateBit_result, Verif.Bits.addBitstr_rejects, Verif.Bits.addBytes_dirty_fails | every history of appends, fills, updates, truncations and bit strings; a partial byte appended at a byte boundary must have its unused bits clear, otherwise they leak into later bits (negation proved)
C29 | partial | Verif.Bits.createConst_rep, Verif.Bits.create_rep, Verif.Bits.append_correct_partial, Verif.Bits.appendUint_correct, Verif.Bits.readBit_correct, Verif.Bits.readBitBuf_correct, Verif.Bits.readBytes_correct_partial, Verif.Bits.readUint_correct_partial, Verif.Bits.readInt_correct_partial, Verif.Bits.consume_correct, Verif.Bits.mark_rewind, Verif.Bits.readRange_correct, Verif.Bits.consumeToNext_correct, Verif.Bits.count_correct_partial, Verif.Bits.readBytes_overread_fails, Verif.Bits.readBytes_wrap_fails, Verif.Bits.readInt_short_fails, Verif.Bits.count_dirty_fails | bit-wise reads always; byte and integer reads from owning parsers or aligned positions; a constant parser read at an unaligned position reads one byte past its source, lengths near 2^64 write before the destination, short signed reads report success and counting includes unused bits (negations proved)
C34 | proved | Verif.Bithacks.isPow_iff, Verif.Bithacks.roundDown32_correct, Verif.Bithacks.roundDown64_correct, Verif.Bithacks.roundUp32_correct, Verif.Bithacks.roundUp64_correct, Verif.Bithacks.roundUp_overflow, Verif.Bithacks.log32_correct, Verif.Bithacks.log64_correct, Verif.Bithacks.signExtend_correct, Verif.Bithacks.signExtend_zero_fails, Verif.Bithacks.popcount64_correct, Verif.Bithacks.popcount8_correct, Verif.Bithacks.popcount8_parser | every 32 and 64-bit word in the mathematical domain (logarithm of nonzero words, sign extension of 1 to 64 bits); rounding up beyond the largest power of two gives 0
C35 | partial | Verif.Crc.crc8_correct, Verif.Crc.crc16_correct_partial, Verif.Crc.crc16_empty_fails, Verif.Crc.crc32_correct, Verif.Crc.crc8_burst, Verif.Crc.crc16_burst, Verif.Crc.crc32_burst, Verif.Crc.lrc_correct | equality with long division of the message polynomial and detection of all error bursts up to the width; the empty message of CRC-16 gives 0 instead of the initial register (negation proved)
C36 | proved | Verif.Mem.mem_correct, Verif.Mem.rmem_correct_partial, Verif.Mem.rmem_empty_fails, Verif.Mem.memEq_correct, Verif.Mem.cmpsort_eq, Verif.Mem.cmpsort_antisymm, Verif.Mem.cmpsort_trans, Verif.Mem.count_correct, Verif.Mem.swapBytes_correct | leftmost occurrence, exact equality, total order; backward search proved for nonempty needles
C37 | proved | Verif.Mem.order16, Verif.Mem.order32, Verif.Mem.order64 | on little and big endian machines
C39 | proved | Verif.RwLock.exclusion, Verif.RwLock.counters_nonneg, Verif.RwLock.writer_first | Any number of threads, every interleaving of mutex sections, signals sent after the mutex is released, spurious wakeups. Mutex and condition variables of the system are trusted; only holders unlock (unlocking a free lock leaves the internal mutex locked).
C40 | proved | Verif.RwLock.no_lost_wakeup, Verif.RwLock.free_lock_is_taken | When nobody holds the lock and somebody sleeps, the wakeups under way give the lock to a waiting thread in at most two steps, without new calls or spurious wakeups.
C38 | partial | Verif.Pool.exactly_once, Verif.Pool.first_in_first_out, Verif.Pool.finished_once, Verif.Pool.bounded, Verif.Pool.mkCfg_ok, Verif.Pool.wait_returns, Verif.Pool.all_finished_partial, Verif.Pool.destroy_completes, Verif.Pool.pool_thread_moves, Verif.Pool.user_moves, Verif.Pool.stranded_task, Verif.Pool.below_minimum | Safety (exactly one place per task, order, bounds, what parent_wait guarantees) for all pools and schedules; that every task is eventually run is proved for pools whose threads do not end when idle and refuted for the others: a task dispatched while the last thread is ending is never run.
C41 | proved | Verif.Pipe.finished_once, Verif.Pipe.success_order, Verif.Pipe.step_order, Verif.Pipe.step_after, Verif.Pipe.success_all_steps | any number of steps, users and tasks, every schedule, spurious wakeups included; mutex and conditions trusted
C42 | partial | Verif.Pipe.up_completes, Verif.Pipe.shutdown_completes_partial, Verif.Pipe.shutdown_one_step_partial, Verif.Pipe.destroy_returns, Verif.Pipe.not_quiet, Verif.Pipe.shutdown_blocks | false as stated: shutdown_blocks shows a shutdown that never ends; proved when no step is left waiting to hand a task over, and always for one step
C43 | partial | Verif.Pipe.results_partial, Verif.Pipe.failure_reported_as_abort, Verif.Pipe.abort_reported_as_failure | false as stated in both directions once the pipeline is down; proved while it is up
C44 | partial | Verif.Timer.fires_only_running, Verif.Timer.not_early_partial, Verif.Timer.fire_count, Verif.Timer.earliest_first, Verif.Timer.pass_complete, Verif.Timer.fires_early, Verif.Timer.refused_start_fires, Verif.Timer.own_start_forgets | stopped timers, counts and order (in whole milliseconds) for all timers and histories; "never before due" is false: up to a millisecond early (fires_early), at once after a refused start (refused_start_fires), and when started with a start time in the own callback (own_start_forgets)
C30 | partial | Verif.Buf.history_partial, Verif.Buf.finish_partial, Verif.Buf.merge_partial, Verif.Buf.justify_field, Verif.Buf.merge_fails, Verif.Buf.just_misplaced, Verif.Buf.just_outside, Verif.Buf.grow_hangs, Verif.Buf.idle_unterminated | all histories of additions with transformations, fills, truncations, drops, trims, direct writes and justified additions, accesses checked against the allocation; false for merging a source something was dropped from (merge_fails) and for justified additions after a drop (just_misplaced, just_outside)
C31 | partial | Verif.Parser.dynamic_partial, Verif.Parser.constant_partial, Verif.Parser.stale_mark, Verif.Parser.column_fails, Verif.Parser.short_buffer | all histories of appends, direct writes, consuming, truncating, marking, rewinding, resetting and reading; false when bytes are appended at a mark at the end of a fully consumed stream (stale_mark), for the column after a rewind of a dynamic parser (column_fails), and a scanning read into a short buffer loses bytes (short_buffer)
C32 | partial | Verif.Parser.Scan.until_correct, Verif.Parser.Scan.boundary_sound, Verif.Parser.Scan.boundary_partial, Verif.Parser.Scan.boundary_byte, Verif.Parser.Scan.boundary_fails, Verif.Parser.Scan.boundary_empty | proved for consume_until; consume_boundary misses patterns after a repeated first byte (boundary_fails); proved sound for all patterns, and complete when the first byte of the pattern does not occur before it
C56 | proved | Verif.Parser.Scan.split_correct, Verif.Parser.Scan.split_one, Verif.Parser.Scan.split_join, Verif.Parser.Scan.Sections.unique | on the remaining bytes of the parser
C57 | proved | Verif.Parser.Scan.frame_correct, Verif.Parser.Scan.frame_sound | on the remaining bytes of the parser; fewer than four bytes are refused, so an empty message at the very end is not read
C58 | proved | Verif.Parser.Scan.predMax_correct, Verif.Parser.Scan.charset_correct, Verif.Parser.Scan.whitespace_correct, Verif.Parser.Scan.eol_correct | on the remaining bytes of the parser
C33 | partial | Verif.Bitlist.list_parse_partial, Verif.Bitlist.list_unknown, Verif.Bitlist.parse_correct, Verif.Bitlist.single_roundtrip, Verif.Bitlist.zero_fails | an entry with identifier 0 is always listed but its name is refused by the parser when powers of two are required; hash table variants not modelled
C59 | proved | Verif.Str.eqMax_iff, Verif.Str.eq_iff, Verif.Str.eq_exact, Verif.Str.eqStart_iff, Verif.Str.eqEnd_iff, Verif.Str.casestr_correct, Verif.Str.casestr_empty | an empty needle in an empty string is not found (casestr_empty)
C60 | proved | Verif.Str.cpy_correct, Verif.Str.cpyMax_correct, Verif.Str.cat_correct | appending stores nothing when the whole does not fit
C61 | proved | Verif.Str.trim_correct, Verif.Str.trim_unique |
C62 | partial | Verif.Str.unquote_quoteMax, Verif.Str.unquote_quote, Verif.Str.unquote_bare, Verif.Str.quoteIf_partial, Verif.Str.quoteIf_fails, Verif.Str.quote_high_fails | quote characters of 128 and above are never recognised; quoting only if necessary overlooks white space other than blanks at the ends
C63 | proved | Verif.Str.explode_correct, Verif.Str.explode_join, Verif.Str.parts_unique, Verif.Str.explode_zero | data starting with a zero byte gives no parts
C64 | partial | Verif.Str.explodeQ_partial, Verif.Str.implode_partial, Verif.Str.explodeQ_fails, Verif.Str.explodeQ_one, Verif.Str.implode_fails | writes past the array when delimiter and escape are the same; a limit of one part is no limit; a part that ends with the escape character is not read back
C65 | partial | Verif.Str.replace_partial, Verif.Str.pieces_exist, Verif.Str.replace_fails, Verif.Str.replaceCharset_correct, Verif.Str.replaceCharset_fails | a match at the very end of the string duplicates the text before it (proved for every such string)
C66 | partial | Verif.Str.quoted_partial, Verif.Str.quoted_fails, Verif.Str.bracketed_correct | quote and escape the same: store before the buffer; brackets without quotes
C67 | proved | Verif.Str.explodeLines_correct |
C45 | partial | Verif.Csv.write_parse_partial, Verif.Csv.quotes_fails | cells made only of quotes read back with one quote more; column selection by name and callbacks not modelled
C46 | proved | Verif.Csv.parse_correct, Verif.Csv.count_correct, Verif.Csv.table_rect |
C51 | proved | Verif.Textcodec.percent_roundtrip, Verif.Textcodec.percent_escapes | the form variants leave CR and LF unencoded, as the code documents
C52 | partial | Verif.Textcodec.Qp.qp_roundtrip_partial, Verif.Textcodec.Qp.qp_bytes_fails, Verif.Textcodec.Qp.qp_decode_correct, Verif.Textcodec.Qp.qp_decode_fails | bytes from 128 on make the encoder read outside its digit table (proved for every such text); some malformed escapes decode without an error
C68 | proved | Verif.Textcodec.percent_decode_correct, Verif.Textcodec.means_unique, Verif.Textcodec.percent_replace_fails | the replacement of a bad sequence is FF FD, which is not UTF-8
C50 | partial | Verif.Textcodec.Puny.puny_roundtrip_partial, Verif.Textcodec.Puny.puny_short, Verif.Textcodec.Puny.puny_rejects, Verif.Textcodec.Puny.puny_long_fails | proved for every valid text of at most 3854 characters, and for longer ones with smaller code points; a text of 4000 characters is encoded to something the decoder refuses
C69 | partial | Verif.Decimal.toStr_correct_partial, Verif.Decimal.text_roundtrip_partial, Verif.Decimal.toStr_many_fails, Verif.Decimal.roundtrip_min_fails | proved for at most 19 decimal places; beyond that the writer prints another number or divides by zero
C70 | partial | Verif.Decimal.fromStr_exact_partial, Verif.Decimal.fromStr_point_partial, Verif.Decimal.fromStr_overflow_partial, Verif.Decimal.fromStr_exp_partial, Verif.Decimal.fromStr_many_fails, Verif.Decimal.fromStr_space_fails, Verif.Decimal.fromStr_len_fails, Verif.Decimal.fromStr_exp_fails, Verif.Decimal.fromStr_exp_trunc_fails | proved for at most 18 decimals; more decimals, white space after the point, and some exponents are read wrongly without an error, and the length is not respected before an exponent
C47 | partial | Verif.Json.string_roundtrip_partial, Verif.Json.string_rfc_partial, Verif.Json.string_roundtrip_fails | Reader and writer modelled; characters above U+FFFF in escaped form come back wrong (witness).
C48 | partial | Verif.Json.json_roundtrip_partial, Verif.Json.write_rfc_partial, Verif.Json.read_doc, Verif.Json.key_fails, Verif.Json.key_empty_fails, Verif.Json.int_fails, Verif.Json.int_nocompat_fails, Verif.Json.dec_min_fails | For documents of any depth; names that need escapes, empty names and numbers beyond those of JavaScript do not survive (witnesses). read_doc: every text of the readable grammar is read as its value.
C49 | partial | Verif.Json.read_sound_partial, Verif.Json.read_brackets, Verif.Json.read_fuel, Verif.Json.accepts_missing_comma_fails, Verif.Json.accepts_leading_zero_fails, Verif.Json.accepts_vertical_tab_fails, Verif.Json.accepts_other_fails, Verif.Json.rejects_pair_fails | Accepted text lies in an explicit grammar wider than RFC 8259: commas may be missing, numbers and white space are looser (witnesses). Which number a numeric text stands for is left to C70; comments, replacement of bad characters and undecoded escapes are excluded.
C71 | partial | Verif.Tls.hostMatch_partial, Verif.Tls.verifyHost_partial, Verif.Tls.multilevel_fails, Verif.Tls.multilevel_example_fails, Verif.Tls.long_name_fails | Without the multilevel flag and for alternative names of at most 255 bytes. Multilevel wildcards compare labels from the left, so a host that continues after the name is accepted; longer alternative names count as their first 255 bytes. OpenSSL and the text form of IP addresses are not modelled.
C72 | partial | Verif.Xml.entEncode_correct, Verif.Xml.attrEncode_correct, Verif.Xml.ent_roundtrip, Verif.Xml.attr_roundtrip, Verif.Xml.entDecode_partial, Verif.Xml.attrDecode_partial, Verif.Xml.attr_gt_fails, Verif.Xml.charref_fails | Encoding and the round trip hold for all strings. Decoding knows only some of the references of XML: character references other than &#xA; and &#xD; are left as they are, and in attributes also &gt; and &apos;.
C73 | partial | Verif.Xml.roundtrip_partial, Verif.Xml.roundtrip_elem_partial, Verif.Xml.declaration_fails, Verif.Xml.declaration_ub_fails, Verif.Xml.cdata_fails, Verif.Xml.cdata_raw_fails, Verif.Xml.trailing_comment_fails, Verif.Xml.attr_case_fails, Verif.Xml.text_space_fails, Verif.Xml.comment_fails, Verif.Xml.pi_data_fails | For documents of any size made of elements, processing instructions with attributes, comments and trimmed texts. Declarations, tag data of processing instructions, outer white space of texts, comments containing the end of a comment, CDATA and nodes after the root are not read back (witnesses).
C74 | partial | Verif.Xml.read_sound, Verif.Xml.read_safe, Verif.Xml.readAttrs_wf, Verif.Xml.declaration_ub_fails | Proved for data without zero bytes. Safety needs a zero byte somewhere behind the data: without one a declaration reads past it (witness). What is accepted is an explicit grammar wider than XML: end tags may carry more text, attributes may lack values or quotes, the data of a declaration is not determined.
C75 | proved | Verif.Rand.jump_calls, Verif.Rand.calls_period, Verif.Rand.calls_reach, Verif.Rand.calls_ne_zero, Verif.Rand.create_ne_zero, Verif.Rand.create_inj, Verif.Rand.jump_disjoint, Verif.Rand.nth_count | Kernel calculation modulo the characteristic polynomial, lifted to all states by linearity. A null state is not modelled.
C76 | proved | Verif.Rand.range_empty, Verif.Rand.range_bounds, Verif.Rand.range_terminates, Verif.Rand.range_fair, Verif.Rand.randStr_spec | Fairness counts the states of the period whose first draw is accepted and gives the number. The depth of the recursion is not bounded.
C77 | partial | Verif.Dict.roundtrip_partial, Verif.Dict.serialize_total, Verif.Dict.deserialize_safe, Verif.Dict.deserialize_reject, Verif.Dict.empty_fails, Verif.Dict.key_fails, Verif.Dict.escape_fails, Verif.Dict.null_fails, Verif.Dict.hex_fails, Verif.Dict.empty_value_fails, Verif.Dict.deserialize_fails | The code loses the empty dictionary, keys with delimiters, values that end in the escape character when it is not the quote, null values when all are quoted and encoded characters, and reads before empty values; these are proved as failures.
C78 | partial | Verif.FsPath.norm_same_partial, Verif.FsPath.norm_home, Verif.FsPath.norm_absolute, Verif.FsPath.norm_idem, Verif.FsPath.env_fails, Verif.FsPath.backslash_fails, Verif.FsPath.drive_root_fails | Variables of the environment are put in as one part, backslashes split names on Unix, and a root without drive is lost on Windows; these are proved as failures and excluded from the laws.
C79 | partial | Verif.FsPath.split_spec, Verif.FsPath.split_place, Verif.FsPath.join_place, Verif.FsPath.unc_fails | Splitting for both path styles, without names that are variables and, on Windows, roots without drive; joining is proved for the Unix style only.
C80 | partial | Verif.FsPath.follow_sound, Verif.FsPath.follow_complete, Verif.FsPath.follow_loop, Verif.FsPath.follow_absolute | For paths and link targets without backslashes and variables (these would be expanded), without M_FS_PATH_NORM_HOME and NOPARENT. The answers of readlink are assumed to agree with one file system during the call.
C81 | partial | Verif.AsyncWriter.in_order, Verif.AsyncWriter.limit, Verif.AsyncWriter.limit_step, Verif.AsyncWriter.shutdown_account_partial, Verif.AsyncWriter.flush_partial, Verif.AsyncWriter.write_returns_partial, Verif.AsyncWriter.drop_oldest_partial, Verif.AsyncWriter.retry_fails, Verif.AsyncWriter.leak_fails, Verif.AsyncWriter.write_hangs_fails, Verif.AsyncWriter.counted_twice_fails, Verif.AsyncWriter.kill_silent_fails, Verif.AsyncWriter.destroy_stopped_fails | Order and limit hold for all runs. The accounting is proved for a callback that refuses nothing: a message refused while the queue is empty is lost without being counted and its space leaks, after which a write can hang; a count can be reported twice. Destroying with waiting and without flush reports nothing.
C82 | partial | Verif.AsyncWriter.given_asked, Verif.AsyncWriter.given_soon_partial, Verif.AsyncWriter.urgent_partial, Verif.AsyncWriter.block_partial, Verif.AsyncWriter.command_lost_fails, Verif.AsyncWriter.block_fails, Verif.AsyncWriter.block_stopped_fails | Proved for callbacks that do not refuse the report of dropped messages; if they do, the command is lost. The waiting call can come back early when another command is just being finished or when the writer is stopped.
C83 | partial | Verif.AsyncWriter.safe, Verif.AsyncWriter.silent, Verif.AsyncWriter.asleep, Verif.AsyncWriter.rests_partial, Verif.AsyncWriter.rests_when_done, Verif.AsyncWriter.waiters_return, Verif.AsyncWriter.start_fails, Verif.AsyncWriter.restart_fails | A failing start keeps the lock for ever, so the last part is for runs in which no start fails. One caller at a time waits for the destruction.
C84 | partial | Verif.Http.feed_read_partial, Verif.Http.steps_suffix, Verif.Http.multipart_pieces_fails | Proved for every stream whose header does not announce a multipart body, and for callbacks that accept body and chunk data. For multipart bodies the code violates it: cuts inside a part are refused, bytes are lost, or the reader stops making progress.
C85 | proved | Verif.Http.Frame.read_sized, Verif.Http.Frame.read_coded, Verif.Http.Frame.read_plain_request, Verif.Http.Frame.read_plain_response, Verif.Http.Frame.feed_sized, Verif.Http.Frame.feed_coded, Verif.Http.Frame.two_lengths, Verif.Http.Frame.lenient_fails, Verif.Http.Frame.blank_number_fails, Verif.Http.Frame.chunk_number_fails | For callbacks that all succeed, and messages that are not multipart. The `_fails` theorems show invalid numbers, codings and versions that are also accepted, a read behind the buffer, and that a chunk's end is reported with the number of the next chunk.
C86 | proved | Verif.Http.Frame.headers_kept, Verif.Http.Frame.headers_set, Verif.Http.Frame.header_text_fails | For values in the form described; header_text_fails shows texts outside of it that come back changed: a second equals sign, a comma in quotes, the same part twice, an empty value.
C87 | proved | Verif.Http.Frame.response_read, Verif.Http.Frame.request_read, Verif.Http.Frame.response_refused, Verif.Http.Frame.reason_names, Verif.Http.Frame.writer_fails | For headers without a Transfer-Encoding, with a Content-Length only if it is right, and a type that is not multipart; reading is for messages within the limits of the reader. writer_fails shows what is written outside of these: line ends in values, reasons and addresses are not refused, nor are wrong lengths with NULL data, nor a coding with a text whose length is not given.
C88 | partial | Verif.SkipList.skiplist_correct_partial, Verif.SkipList.duplicate_partial, Verif.SkipList.merge_correct, Verif.SkipList.stable_fails, Verif.SkipList.duplicate_order_fails | every history, every random level; that equal values keep the order of insertion is false in the code (negations proved), so an insertion goes somewhere among the equal values
C89 | partial | Verif.Sql.process_atomic, Verif.Sql.stmt_atomic, Verif.Sql.process_retries, Verif.Sql.stmt_retries, Verif.Sql.process_no_ub_partial, Verif.Sql.act_reported, Verif.Sql.process_ub_fails | for every behaviour of driver, pool and user function (a failed commit is assumed to commit nothing, a failed rollback to mean that the connection is lost); process_ub_fails: if the user's function returns success after a deadlock or lost connection, M_sql_trans_commit reads a connection that was freed
C90 | partial | Verif.ConnPool.pool_max, Verif.ConnPool.pool_exclusive, Verif.ConnPool.pool_healthy, Verif.ConnPool.pool_stop, Verif.ConnPool.pool_no_leak, Verif.ConnPool.pool_awake_partial, Verif.ConnPool.pool_wakeup_fails | any number of threads and interleavings; that no thread waits beside an idle connection is false (pool_wakeup_fails), what holds is that not all threads wait
C91 | partial | Verif.IoBuffer.ioBuffer_streams, Verif.IoBuffer.ioBuffer_calls, Verif.IoBuffer.ioBuffer_bounds_partial, Verif.IoBuffer.ioBuffer_told, Verif.IoBuffer.ioBuffer_flushed, Verif.IoBuffer.ioBuffer_unread_partial, Verif.IoBuffer.ioBuffer_unread_fails, Verif.IoBuffer.ioBuffer_bounds_fails | for both directions buffered, maxima up to 2^62; two clauses are false in the code: the read buffer holds 16384 bytes even if its maximum is less, and a read event that comes while the buffer holds its maximum leaves bytes below that nobody asks for (negations proved)
C92 | partial | Verif.StrFmt.printf_render, Verif.StrFmt.bprintf_appends, Verif.StrFmt.snprintf_prefix, Verif.StrFmt.snprintf_measure, Verif.StrFmt.dprintf_output_partial, Verif.StrFmt.fprintf_output_partial, Verif.StrFmt.fprintf_error_fails, Verif.StrFmt.printf_I_fails | the digits of a double are a parameter (at most 510 bytes); files and streams are proved for writes that take all; two clauses are false in the code: a failed write of a sign goes unreported (fprintf_error_fails), and %I is size_t only at the end of a format (printf_I_fails)
C93 | partial | Verif.FsFile.history_partial, Verif.FsFile.writes_history, Verif.FsFile.unbuffered_read, Verif.FsFile.read_bytes_exact, Verif.FsFile.write_bytes_exact, Verif.FsFile.read_end_fails, Verif.FsFile.seek_zero_fails, Verif.FsFile.seek_error_fails, Verif.FsFile.flush_before_seek_fails, Verif.FsFile.close_fails | whole histories when no write fails and no seek fails or goes to offset 0 from an end; writing and flushing only, and whole-file reads and writes, without restriction; the rest is refuted by runs: a buffered read reports the end early, seeking to offset 0 does nothing, a failed seek moves, flush errors in seek and close are dropped
C94 | partial | Verif.FsFile.copy_partial, Verif.FsFile.move_partial, Verif.FsFile.copy_short_fails, Verif.FsFile.copy_close_fails, Verif.FsFile.copy_self_fails, Verif.FsFile.move_loses_fails, Verif.FsFile.move_full_fails, Verif.FsFile.move_cancel_fails | regular files; exactness needs reads of at most 1024 bytes and writes that work, without either the code loses data and reports success
C95 | partial | Verif.Tz.add_rule, Verif.Tz.rule_of_year, Verif.Tz.change_time_partial, Verif.Tz.tolocal_partial, Verif.Tz.roundtrip_partial, Verif.Tz.fixed_zone, Verif.Tz.last_weekday_fails, Verif.Tz.berlin_fails, Verif.Tz.fifth_week_fails, Verif.Tz.east_fails, Verif.Tz.south_fails, Verif.Tz.always_dst_fails, Verif.Tz.abbr_fails, Verif.Tz.hour24_fails | proved for western zones whose DST does not span the new year and whose changes are counted from the start of the month; for the others the code is wrong and the negations are proved; parsing of TZ strings not modelled
C96 | partial | Verif.Tz.olson_tolocal_partial, Verif.Tz.olson_roundtrip_partial, Verif.Tz.same_kind_fails, Verif.Tz.first_instant_fails, Verif.Tz.before_first_fails | round trip for tables with transitions more than two days apart, beginning with standard time, where the clock is put back only between DST and standard time; reading TZif files not modelled
C97 | partial | Verif.StateMachine.session_partial, Verif.StateMachine.tree_session_partial, Verif.StateMachine.run_threads, Verif.StateMachine.continue_ends_partial, Verif.StateMachine.insert_state, Verif.StateMachine.continue_cleanup_fails, Verif.StateMachine.no_prev_fails, Verif.StateMachine.one_cleanup_wait_fails, Verif.StateMachine.one_cleanup_error_fails, Verif.StateMachine.stop_cleanup_fails, Verif.StateMachine.pause_bad_id_fails, Verif.StateMachine.skip_pause_fails | for every nesting depth, all callbacks and all session lengths; the histories on which the code departs from its documentation are excluded and the negations proved; tracing and descriptions not modelled
C98 | partial | Verif.StateMachine.reset_partial, Verif.StateMachine.reset_silent_partial, Verif.StateMachine.reset_interleaved_fails | machine waiting in a state of its own; inside interleaved machines the claim is false (negation proved), inside a plain sub machine it is only shown on a concrete machine
C99 | partial | Verif.StateMachine.inter_visit, Verif.StateMachine.interleaved_garbage_fails, Verif.StateMachine.interleaved_abort_fails | proved for every list of machines; the running flag is never initialised and an error leaves the other machines running, negations proved
C100 | partial | Verif.GroupInsert.inserted_once, Verif.GroupInsert.error_not_inserted, Verif.GroupInsert.success_inserted_runner, Verif.GroupInsert.success_inserted_partial, Verif.GroupInsert.same_query, Verif.GroupInsert.success_inserted_fails, Verif.GroupInsert.success_commit_fails | for queries without surrounding white space; success is true for the caller that ran the statement, for the others only if begin and commit never fail for good (negations proved)
C101 | partial | Verif.GroupInsert.progress, Verif.GroupInsert.no_use_after_free_partial, Verif.GroupInsert.no_race_partial, Verif.GroupInsert.all_freed_partial, Verif.GroupInsert.no_use_after_free_fails | for queries without surrounding white space; otherwise the closed group stays in the table and its freed statement is handed out again (negation proved)
C102 | partial | Verif.SqlQuery.squeeze_words, Verif.SqlQuery.squeeze_canonical, Verif.SqlQuery.squeeze_same, Verif.SqlQuery.minimize_none, Verif.SqlQuery.squeeze_runs_partial, Verif.SqlQuery.squeeze_comment_fails, Verif.SqlQuery.squeeze_literal_fails | words and single characters are kept for every query; two operators separated by white space are joined ("- -" becomes a comment) and the text of strings is changed, negations proved
C103 | partial | Verif.SqlQuery.expand_correct, Verif.SqlQuery.expand_none, Verif.SqlQuery.number_correct, Verif.SqlQuery.queryformat_correct, Verif.SqlQuery.queryformat_none, Verif.SqlQuery.execute_placeholders_partial, Verif.SqlQuery.execute_arrays, Verif.SqlQuery.placeholders_name_fails, Verif.SqlQuery.placeholders_outside_fails | the rewriting is characterised for every query; placeholders and values agree if all placeholders are in the group behind the first "values(", negations proved for a table name that ends in values and for placeholders behind the group
C104 | partial | Verif.SqlQuery.execute_done, Verif.SqlQuery.execute_error, Verif.SqlQuery.execute_ends, Verif.SqlQuery.execute_misfit, Verif.SqlQuery.checkRows_correct, Verif.SqlQuery.execute_once, Verif.SqlQuery.execute_limits, Verif.SqlQuery.pgsql_insert_partial, Verif.SqlQuery.pgsql_limit_fails, Verif.SqlQuery.pgsql_insert_fails | rows and order proved for all drivers; PostgreSQL batches have no limit on values and its inserts without bound values are reported as conflicts, negations proved
C105 | partial | Verif.SqlQuery.prepare_ok, Verif.SqlQuery.prepare_error, Verif.SqlQuery.terminator_fails, Verif.SqlQuery.terminator_kept_fails | the checks are proved for every query; an accepted terminator at the end stays in the text and the conflict clause is appended behind it, negations proved
C106 | partial | Verif.ProxyProto.binary_pieces, Verif.ProxyProto.binary_waits, Verif.ProxyProto.unknown_pieces, Verif.ProxyProto.text_whole, Verif.ProxyProto.text_pieces_partial, Verif.ProxyProto.text_pieces_fails, Verif.ProxyProto.unspec_pieces_partial, Verif.ProxyProto.unspec_pieces_fails, Verif.ProxyProto.endpoints_correct, Verif.ProxyProto.roundtrip_binary, Verif.ProxyProto.roundtrip_text_partial, Verif.ProxyProto.roundtrip_local, Verif.ProxyProto.header_sent, Verif.ProxyProto.reset_local_fails, Verif.ProxyProto.endpoints_lock_fails, Verif.ProxyProto.local_zero_fails, Verif.ProxyProto.unknown_text_fails | binary headers with addresses, "PROXY UNKNOWN" and the sending side are proved for every cut; a text header cut behind five characters of an incomplete port is refused and a binary header without addresses leaks its extensions when cut, both negations proved for every such cut
C107 | partial | Verif.ProxyProto.accepted_partial, Verif.ProxyProto.pieces_agree_partial, Verif.ProxyProto.reads_partial, Verif.ProxyProto.read_error_fails, Verif.ProxyProto.close_fails, Verif.ProxyProto.text_port_fails, Verif.ProxyProto.text_family_fails, Verif.ProxyProto.proxy_unspec_fails | proved for every stream and cut except binary headers without addresses but with extensions; fields of the text form are read leniently (negations proved); data is lost when the peer closes behind its header or an error is reported while data is buffered
C108 | partial | Verif.Ini.store_partial, Verif.Ini.keys_partial, Verif.Ini.duplicate_partial, Verif.Ini.hasKey_fails, Verif.Ini.enumerate_fails, Verif.Ini.keys_fails, Verif.Ini.duplicate_fails | proved for every history; excluded are, with blanks ignored, keys with adjacent blanks or nothing else (negations proved), keys that begin with the separator for the listing, and keys without values for the copy (negations proved)
C109 | partial | Verif.Ini.lines_partial, Verif.Ini.read_safe_partial, Verif.Ini.parseLine_text, Verif.Ini.explode_file, Verif.Ini.read_partial, Verif.Ini.explode_fails, Verif.Ini.readKey_fails, Verif.Ini.firstWins_fails | proved for every text (safety) and every file of the grammar (meaning); excluded are settings whose escape character is zero or the line end while quoting (negation proved), coinciding characters, and with blanks ignored names with adjacent blanks (negation proved)
C110 | partial | Verif.Ini.roundtrip_partial, Verif.Ini.updateTree_spec, Verif.Ini.tree_text, Verif.Ini.comment_fails, Verif.Ini.tab_fails, Verif.Ini.noQuote_fails, Verif.Ini.noValue_fails, Verif.Ini.useLast_fails, Verif.Ini.twice_fails, Verif.Ini.slash_fails | proved for every history of calls and writes whose keys and values the format can hold; excluded, each with its negation proved: unquoted comment characters and tabs, keys without values, sections emptied after a write, keys that begin with a slash, several values with other settings; objects read from a file before are not covered
C111 | partial | Verif.Getopt.add_iff, Verif.Getopt.parse_partial, Verif.Getopt.parse_total, Verif.Getopt.group_rule, Verif.Getopt.group_fails, Verif.Getopt.group_lost_fails, Verif.Getopt.group_joined_fails, Verif.Getopt.trailing_fails | The parser's result is exactly the one prescribed by the rules, for every command line without groups of short options (iff, and the rules settle every such line). Missing: groups, where the first option is processed a second time with the value of the last one, so its callback is called twice and an argument can be lost. Text after a number is ignored.
C112 | partial | Verif.Table.table_partial, Verif.Table.step_total, Verif.Table.rename_fails, Verif.Table.clear_fails, Verif.Table.removed_fails, Verif.Table.take_fails, Verif.Table.dict_fails, Verif.Table.sortAt_fails, Verif.Table.id_fails, Verif.Table.rowid_fails, Verif.Table.zero_fails | proved for every history with distinct random numbers; excluded, each with its negation proved: renaming a named column, taking another column's name, setting a dictionary into a missing row, sorting by column number
C113 | partial | Verif.Shaping.window_partial, Verif.Shaping.total_exact, Verif.Shaping.latency_write, Verif.Shaping.transparent, Verif.Shaping.held_below, Verif.Shaping.no_ub_partial, Verif.Shaping.wake_partial, Verif.Shaping.window_fails, Verif.Shaping.trickle_fails, Verif.Shaping.full_fails, Verif.Shaping.overflow_fails, Verif.Shaping.accept_fails, Verif.Shaping.underflow_fails, Verif.Shaping.unthrottle_fails | Rate in burst mode for windows shorter than the period less the sample frequency, for all histories and all clocks; totals, latency for writing, no effect without settings; no missing slot is used when the layer below answers in time and settings do not overflow; waiting directions are woken exactly when they may go on, when the clock does not move during a call. The full claims fail: a window of the whole period can carry nearly twice the limit, trickle mode does not limit the millisecond in which a slot ends, slots run out when the layer below is slow or on accepted connections, rates can overflow, the time to wait can underflow, and lifting a limit leaves waiters waiting.
C114 | partial | Verif.Re.search_iff, Verif.Re.search_safe, Verif.Re.reach_fits, Verif.Re.reported_sound, Verif.Re.submatches, Verif.Re.leftmost_longest_partial, Verif.Re.leftmost_fails, Verif.Re.eq_start_partial, Verif.Re.eq_partial, Verif.Re.eq_fails, Verif.Re.matches_partial, Verif.Re.matches_null, Verif.Re.matches_fails, Verif.Re.matches_bol_fails | For every automaton and text: a match is found exactly when there is one, nothing outside the string or the arrays is read, offsets come from one accepting path. Leftmost-longest, M_re_eq, M_re_eq_start and M_re_matches for automata that record starts, without lazy repetition, and with one tag or one way to end. The full claims fail: a better way to the end replaces a match that starts earlier; M_re_eq rejects texts that a lazy pattern matches as a whole; M_re_matches returns NULL for every pattern that can match nothing, and takes every place after a match for the beginning of the text. Building the automaton from the pattern is C115.
C115 | partial | Verif.Re.build_sound, Verif.Re.build_iff_partial, Verif.Re.expand_keeps, Verif.Re.expand_apart_partial, Verif.Re.compile_sound_partial, Verif.Re.compile_iff_partial, Verif.Re.compile_search_partial, Verif.Re.table_room, Verif.Re.compile_deep_fails, Verif.Re.compile_gap_fails, Verif.Re.compile_calm_fails | For every tree in which counted repetitions are inside of at most one other repetition, nothing was dropped by {0}, and no way to match nothing with an assertion hides another one; without the last condition nothing too much is accepted. Writing out repetitions keeps the meaning for all trees, and the transition table has room for all trees. The full claim fails: ((a{2})*b)* matches "ab", (ab{0}c){2} matches "aac", (^)*b does not find the b of "ab". Parsing the pattern and placing tags are not modelled.
C116 | partial | Verif.HashMulti.answers, Verif.HashMulti.get_last_partial, Verif.HashMulti.get_null_fails, Verif.HashMulti.free_exact, Verif.HashMulti.released, Verif.HashMulti.memory, Verif.HashMulti.memory_leak_fails, Verif.HashMulti.alias_partial, Verif.HashMulti.alias_same_fails | For all histories: answers, calls of free functions and their number, and memory. Reading back for histories without NULL binary data; the full claim fails: NULL binary data is accepted but the key then has no type, a refused insertion of binary data or a pointer under an empty string loses its copy, and storing a string under the key it was read from reads released memory. The hash tables underneath are an association list here (C09 is about them).
C117 | partial | Verif.Re.template_partial, Verif.Re.template_unique, Verif.Re.template_fails, Verif.Re.sub_partial, Verif.Re.sub_nogroups_partial, Verif.Re.sub_self_partial, Verif.Re.sub_null, Verif.Re.sub_fails, Verif.Re.find_all_partial | For patterns that never match the empty text, on top of C114. Templates without white space or sign after \g<: the code takes \g<+1> and \g< 1> for references and drops \g<-1>. For patterns with groups the captures are assumed to lie within the text (placing tags is not modelled). The full claim fails: a pattern that can match nothing replaces nothing at all.
C118 | partial | Verif.FsPerms.getters, Verif.FsPerms.set_perms_partial, Verif.FsPerms.never_removes, Verif.FsPerms.set_perms_fails, Verif.FsPerms.special_fails, Verif.FsPerms.only_nine, Verif.FsPerms.owner, Verif.FsPerms.new_file, Verif.FsPerms.mkdir_partial, Verif.FsPerms.mkdir_fails, Verif.FsPerms.read_perms, Verif.FsPerms.copy_partial, Verif.FsPerms.copy_fails, Verif.FsPerms.can_access, Verif.FsPerms.dup_partial, Verif.FsPerms.dup_rest, Verif.FsPerms.dup_fails, Verif.FsPerms.merge_exact, Verif.FsPerms.merge_stays_exact, Verif.FsPerms.merge_replaces, Verif.FsPerms.merge_null, Verif.FsPerms.merge_owner_partial, Verif.FsPerms.merge_owner_fails, Verif.FsPerms.merge_leak_fails | Unix only. Setters and getters, new files, reading permissions, asking for access and merging of modes for all inputs. The full claim fails: applying permissions to a path never takes any away and drops the sticky and set-id bits, creating a directory ignores directory overrides, a duplicate forgets whether the group's permissions were added or removed, merging loses the owner's name and leaks the second object.
C119 | partial | Verif.JsonPath.C119.path_partial, Verif.JsonPath.C119.order_partial, Verif.JsonPath.C119.found_exists, Verif.JsonPath.C119.no_root, Verif.JsonPath.C119.root_only, Verif.JsonPath.C119.root_child_fails, Verif.JsonPath.C119.deep_index_fails, Verif.JsonPath.C119.deep_all_fails, Verif.JsonPath.C119.bad_index_fails, Verif.JsonPath.C119.slice_fails, Verif.JsonPath.C119.case_fails | For expressions that begin with .. or a bracket, with .. only before names and *, and whose indexes in lists and slices do not lie before the beginning of an array. The full claim fails outside of that: $.name searches the whole document, ..[0] does not look into objects, ..[*] passes the recursion on to the next step, one index too small makes the whole list select nothing, and a slice beginning before the array selects nothing. Names are compared without case.
C120 | partial | Verif.TableCsv.round_trip_partial, Verif.TableCsv.written_partial, Verif.TableCsv.load_header_partial, Verif.TableCsv.load_plain_partial, Verif.TableCsv.load_none, Verif.TableCsv.wide_fails, Verif.TableCsv.narrow_fails, Verif.TableCsv.unnamed_fails, Verif.TableCsv.unnamed_later_fails, Verif.TableCsv.doubled_fails, Verif.TableCsv.trim_fails, Verif.TableCsv.quotes_fails, Verif.TableCsv.last_row_fails | Round trip and loading proved for every reachable table and every text; headers with missing or repeated names, headerless CSV of another width, trimming, values of quotes only and an empty last row of a single column do not work in the code (witnesses)
C121 | partial | Verif.Verify.domain_exact, Verif.Verify.email_exact, Verif.Verify.list_partial, Verif.Verify.escaped_quote_fails, Verif.Verify.single_space_fails | Exact grammar for every string, in both directions; documented escaped quotes in a display name are refused, and a list of a single address is not trimmed (witnesses)
C122 | partial | Verif.IniMerge.merge_partial, Verif.IniMerge.merge_nothing_new_partial, Verif.IniMerge.merge_untouched_partial, Verif.IniMerge.null_fails, Verif.IniMerge.valueless_fails | Decision table for every key, flags and callback, and both consequences; a value without a text among several is doubled, and a key whose values were removed comes back (witnesses); the three objects agree on ignoring blanks; keys as in C108
C123 | partial | Verif.ThreadLocal.history_partial, Verif.ThreadLocal.alive_partial, Verif.ThreadLocal.own_only_partial, Verif.ThreadLocal.cleared_fails, Verif.ThreadLocal.twice_fails | Every schedule of fewer than 2^64 steps; the destructor is called with NULL for a value that was cleared, and setting the same pointer again destroys it while it is still returned (witnesses); destructors that call back are not modelled
C124 | partial | Verif.Hexdump.read_back_partial, Verif.Hexdump.dump_partial, Verif.Hexdump.width_unique, Verif.Hexdump.header_fails | A reader of its own recovers the data from every dump and checks every column; a header with one or two bytes per line and the text column makes a size wrap (witness); sizes near the end of the address space are left out
C125 | partial | Verif.Codepage.encode_partial, Verif.Codepage.decode_partial, Verif.Codepage.decode_no_replace, Verif.Codepage.round_trip, Verif.Codepage.round_trip_back, Verif.Codepage.ascii_kept, Verif.Codepage.question_mark, Verif.Codepage.question_fails, Verif.Codepage.encode_reject, Verif.Codepage.encode_invalid_crash, Verif.Codepage.encode_invalid_fails, Verif.Codepage.decode_replace_fails, Verif.Codepage.utf8_same, Verif.Codepage.utf8_reject, Verif.Codepage.clean_partial, Verif.Codepage.clean_valid, Verif.Codepage.clean_decode_fails, Verif.Codepage.utf8_ignore_fails | All 28 pages against an independent copy of the published mappings. The code reads through NULL for every text that is not UTF-8 unless the handler is FAIL; the decode replacement is FF FD instead of the text of U+FFFD; the encode replacement is not '?' in EBCDIC; IGNORE keeps invalid bytes for UTF-8.
C126 | partial | Verif.TableMerge.merge_partial, Verif.TableMerge.merge_refused, Verif.TableMerge.case_fails, Verif.TableMerge.no_rows_fails | For all tables made by calls; a destination without regard to case needs a source of the same kind (witness: a value is lost); a source without rows adds no columns (witness)
C127 | partial | Verif.TableJson.load_partial, Verif.TableJson.load_refused, Verif.TableJson.load_accepts, Verif.TableJson.write_refused, Verif.TableJson.round_trip_partial, Verif.TableJson.case_fails, Verif.TableJson.columns_fails, Verif.TableJson.name_fails | Loading, refusing, writing and the round trip through text; names that differ by case only lose values (witness), columns without values are lost and others change places (witness), names that need escapes are written unescaped (witness)
C128 | partial | Verif.TableMd.round_trip_partial, Verif.TableMd.write_refused, Verif.TableMd.short_refused, Verif.TableMd.pipe_fails, Verif.TableMd.empty_fails, Verif.TableMd.columns_fails, Verif.TableMd.refused_fails | The round trip for all tables made by calls and all flags; pipes are not escaped (witness), a row without a value in a table of one column written without outer pipes is refused (witness), loading into a table with columns puts values under the wrong names (witness), a refused text leaves columns behind (witness); arbitrary Markdown texts of three lines or more are not covered
C129 | partial | Verif.LogTags.tags_correct, Verif.LogTags.tags_lt, Verif.LogTags.tags_zero, Verif.LogTags.names_partial, Verif.LogTags.names_total, Verif.LogTags.names_padded, Verif.LogTags.clear_fails, Verif.LogTags.lines_correct, Verif.LogTags.write_correct, Verif.LogTags.write_refused, Verif.LogTags.trim_correct, Verif.LogTags.mem_correct, Verif.LogTags.mem_bound, Verif.LogTags.mem_expires | Everything but clearing a name: that always reads freed memory (proved in general), so histories of names have no such call; time stamps and prefixes are arbitrary bytes, and the check and filter of a module are taken to be constant during a call
