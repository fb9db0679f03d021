# Design of the formal model of mstdlib

## Trusted base

* The Lean 4 kernel (4.33.0). No `sorry`, `admit`, own `axiom`, `native_decide`, `bv_decide`, `implemented_by`
  or `unsafe`. Theorems depend at most on `propext`, `Classical.choice`, `Quot.sound`
  (`tools/manifest.py` asks Lean for the axioms of every theorem in `MANIFEST.json` before each commit and refuses others).
* The hand translation of the C text into Lean definitions. Every definition cites the file and lines it models.
  Nothing checks the translation mechanically: the C is never compiled or executed here.
* Environment assumptions that are not part of the model: `malloc` succeeds, callbacks supplied by the user
  are pure functions unless stated, mutexes provide mutual exclusion, condition variables may wake spuriously.

## How C is represented

* Bytes are `UInt8`/`Nat < 256`, words are `BitVec`/`UIntN` where wrap-around matters, `Nat`/`Int` with an explicit
  `% 2^n` where that reads better; sizes are `Nat` (the overflow of `size_t` by an object larger than the address
  space is outside the model unless a definition says otherwise).
* Undefined behaviour (read or write outside an object, use after free, endless loop) is a distinct result of the
  model (`none`, an `Except` error or a `ub` constructor), never a default value.
* Containers are modelled with their concrete layout (array with a start offset, bucket array with chains, node
  heap) and proved to refine an abstract sequence/map; the abstract side is defined without the model's helpers.
* Concurrent code is modelled as a transition system: one transition per critical section (the code between
  acquiring and releasing the mutex or entering a condition wait), any number of threads, any interleaving.

## Files

`lean/Verif/<Area>/Model.lean` model, `.../Lemmas.lean` helper lemmas, `.../Props.lean` specification, property
theorems and the concrete instances (`example`) of their hypotheses.

When the code violates a property the negation is proved on a concrete witness (theorem name ending in `_fails` or
`_violated`) and what does hold is proved under the suffix `_partial`.

## Plan per property

| id | model | proof |
|----|-------|-------|
| C01 | mergesort on arrays of elements with temp buffer | sorted + permutation + stability by strong induction on length |
| C02 | qsort (Bentley-McIlroy) on arrays | permutation and sortedness by strong induction on the slice length |
| C03, C04 | index loops of the binary search | loop invariant over (left, right) |
| C05-C08 | array with `start`, `elements`, `allocated` | refinement to `List`, induction over histories; negations for swap, stack insert_at, remove_range, remove_duplicates |
| C09-C11 | bucket array with chains, arbitrary hash function | representation invariant + refinement to a finite map, rehash preserves |
| C12 | llist + hashtable LRU | refinement to recency list |
| C13 | llist + hash | refinement to duplicate free sequence |
| C14 | node heap with next/prev/head/tail | separation style invariant; negation for circular list |
| C15-C18 | byte level codecs including wrap, whitespace and bounds | round trip by induction on groups; negations for wrap/pad, base32 padding, odd whitespace |
| C19, C20 | decoder/encoder on bytes | case analysis on width with arithmetic |
| C21 | recursive matcher | equivalence to language semantics on the fragment where it holds; negation for escapes in brackets |
| C22, C23 | digit loop with 64-bit wrap | invariant: accumulator is exact while below 2^64; negation for missed overflow |
| C24, C25 | decimals as (num, places) with 64-bit checks | exactness; negation for cmp |
| C26, C27 | civil-from-days arithmetic | round trip by arithmetic on eras; negation for day overflow outside January |
| C28, C29 | bit arrays | refinement to `List Bool`; negations |
| C30 | allocation, consumed prefix, length | refinement to `List UInt8`; negation for merge |
| C31, C32 | stream with marks | refinement; negation for consume_boundary |
| C33 | bit list | round trip |
| C34-C37 | machine words | arithmetic for all words |
| C38 | transition system | invariants by induction over executions |
| C39, C40 | transition system | invariants; progress from every reachable state |
| C41-C43 | transition system | invariants; reachable deadlock as negation |
| C44 | sorted queue of timers and the process loop | invariants |
| C45, C46 | two scanning passes | simulation of the passes; round trip by induction on cells |
| C47-C49 | writer and reader | round trip by structural induction; negations |
| C50 | punycode state machine | decoder simulates encoder |
| C51, C52 | byte codecs | round trip by induction |
| C53, C54 | as C05-C11 | invariant over histories; refinement of whole-container calls |
| C55 | decimals | exactness of the long division loop; negations for rounding and large quotients |
| C56-C58 | scans over the remaining bytes of a parser | loop invariants; specification by "longest prefix" and "sections" relations |
| C59-C67 | NUL terminated strings as byte lists, reads past the block undefined | induction over the string; relational specifications that determine the result; negations |
| C68 | percent decoder | equivalence with a relation "text means bytes"; uniqueness |
| C69, C70 | decimal text form | notation relation; round trip; negations |
| C71 | certificate names against a host name | acceptance iff a name covers the host; negations for multilevel wildcards and long names |
| C72-C74 | XML entities, writer and reader over byte lists, memory behind the data explicit | relation "text denotes bytes"; reader follows the writer by mutual induction over the tree; accepted text lies in a grammar of nested tags, by an invariant over the open elements; negations |
| C75-C76 | generator state of four words, step, jump loop, rejection loop with a bound on nested calls | the step is linear over bits and a zero of a polynomial of degree 256 (kernel calculation on a basis, lifted by linearity); powers of the indeterminate give the jump and the order, with the prime factors of 2^256-1 proved by Lucas certificates; counting by bijection |
| C77 | dictionary as list of pairs, quoting decision, writer, splitting reader | each line is one section for the splitter, by the lemmas on quoted sections (C63); trimming; negations |
| C78 | splitting into parts, variables, home, current directory, the loop over the parts, joining; both path styles | where a path leads as a separate function on names; invariant of the loop (normal form, same place); negations |
| C79 | splitting off the last part, joining | against the same meaning of paths |
| C80 | the loop with links and the recursion on the path with the link replaced | a relation for walking names in a file system with links; every outcome of the loop keeps the relation; the number of links is unique, so a path never repeats unless there is a circle |
| C81 | the writer as a machine whose steps are the locked sections, with events that carry arguments and answers | invariants along any run: taken ++ in hand ++ queue is a subsequence of what was accepted; stored bytes; a sum over accepted, taken, reported, queued and dropped |
| C82 | the command word, the word in the hand of the thread and the flag that a command is done | bit by bit: asked = given or pending or in hand, along any run; where the bits can be after one call of the callback |
| C83 | modes, waiting callers, memory that was given back as outcome of its own | an invariant of 15 parts over runs whose callers keep to stated rules; a measure that goes down with each step of the thread |
| C84 | the whole streaming HTTP reader; the user is a driver that keeps unread bytes | each reading function is stable under more data: a final result stays, a waiting one is continued; composed through the steps, then induction over the pieces |
| C85 | the streaming HTTP reader; a message is described by a grammar of its own (first line, fields, chunks, trailer) | each piece of the grammar is read by the function for it (numbers, fields, first line, chunk line), then induction over the fields and chunks; with C84 for every cut |
| C86 | headers of a message as the table of tables that the code keeps; separately, a list of headers with parts and modifiers | refinement: the stored table is the image of the list after every operation; induction over the operations; texts by the splitting and joining laws of C63 |
| C87 | the simple writers for requests and responses, on the header store of C86, the calendar of C26 and the percent encoding of C51 | each step of the writer keeps the image of a list of headers; the result is a message of the grammar of C85 with one length field, so the reader's theorems apply, for every cut |
| C88 | the skip list of sorted linked lists: cells with link arrays for their levels, the random number an argument of each insertion | each level is a doubly linked chain of the entries that reach it; insertion by induction over the levels with the split of each level, search and removal likewise; refinement to a sorted sequence of nodes |
| C89 | one thread of `M_sql_trans_process` / `M_sql_stmt_execute`; what driver, pool and user function answer is any function of the events so far; the user function is a tree of statements and results | the events are replayed on a small database (committed runs, open transactions); induction over the rounds that what is committed is one complete run of the function, or nothing |
| C90 | threads of a connection pool as a step relation; sections under the mutex are steps, waiting and signals as POSIX has them | an inductive invariant over the pool and the multiset of thread states (numbers, counters, ownership, addresses); negation by a run of eleven steps |
| C91 | the buffer layer between an application and a layer below, as a step relation over arrivals, events, reads and writes; buffers are those of C01 | an inductive invariant on the contents of both buffers, the power-of-two sizes, the marks and the pending events; negations by runs |
| C92 | formatted output: outputs, flags, widths, conversions and the loop over the format; a specification of formats as syntax trees with their text | conversions by the numeral of a number and its field; the loop by induction over the format; the other outputs by a simulation of a buffer; negations by runs |
| C93 | buffered files over an operating system that may fail or cut short any call; a plain file as specification | one call by an invariant tying the buffers to the disk, histories by induction; negations by runs |
| C94 | copying and moving a regular file over a map from paths to bytes | the copy loop by induction over the bytes left, the destination only grows at its end; decision logic of move; negations by kernel evaluation |
| C95 | zones given by rules: time of a change, rule of a year, both conversions, on top of the calendar model of C26 and the binary search of C04 | weekday arithmetic; DST as an interval between two instants, both directions; the round trip from them; negations by computation and, for changes counted from the end of the month, for all years |
| C96 | zones given by transitions: lookup and both conversions | position of an instant in a sorted table; the round trip by the position of the two neighbours looked up |
| C97 | state machines with sub machines, interleaved machines and cleanup machines of any depth | invariant over passes tying the bookkeeping (previous, continuation and cleanup lists) to the history of visits; legal histories as an inductive relation; induction over runs and sessions |
| C98 | resetting machines | the invariant of C97 becomes that of a machine being cleaned up |
| C99 | interleaved machines | one round as an inductive relation, invariant of the statuses between rounds |
| C100 | group inserts: results | transition system of any number of calls, counting invariant of where the calls of a statement are, second invariant relating results and commits |
| C101 | group inserts: progress and memory | the same invariant; deadlock freedom by case analysis of a stuck state |
| C102 | white space in queries | tokens as the characters with a mark where one joins the one before; induction over the text with the last character kept |
| C103 | repeated values and numbered placeholders | the text as parts around the first balanced group; a relation that places numbered holes |
| C104 | batches of bound rows | invariant of the loop over batches for every driver and every answer of the database |
| C105 | checks of a query | a predicate for offending characters, the first one decides |
| C106 | PROXY headers in pieces | the reader as a function of what arrived; a law for every prefix of a header, lifted to every cut; builder inverse of reader |
| C107 | soundness of the PROXY reader | inversion of a successful run to a header of the protocol, the reads as a list equation |
| C108 | values of INI keys | the tables refine a history function, by induction over the calls; the list of printed names by an invariant on the name table |
| C109 | reading INI files | a grammar of lines with layout; the loops go over closed pieces of text (an inductive relation), each line is parsed to what it says, the lines act as calls on the store of C108; safety by comparing the two loops |
| C110 | writing INI files and reading them back | invariant of the tree of elements over histories of calls and writes (keys of the file first, one header per section of the table); updating, adding and pruning together leave exactly the values of the store in the tree; the text is a file of the grammar of C109 |
| C111 | command line options | rules for one use of an option, for values and for what happens with the remaining arguments as an inductive relation; by induction over it the parser's loop gives that result, and by induction over the arguments the relation always gives one |
| C112 | tables | a grid of names and cells with the operations as a relation; the tables of identifiers represent a grid (invariant: the hash tables agree and mention only live identifiers); every operation is a step of the grid, by induction over histories |
| C113 | bandwidth shaping | every reading of the clock is an input; one lemma says what any call does to a direction; the slots that remain cover the bytes moved in every window (invariant over histories); spacing of slots bounds their number; the time to wait is exact for a clock that stands still during the call |
| C114 | regular expression search | paths through an arbitrary tagged automaton are the specification; invariant of the set of states: every entry is a path and every path still in question has an entry that starts no later; the list is sorted by start; offsets by induction over the text |
| C115 | compiling a pattern | a relation says which pieces of a text a tree matches, without positions; soundness by an invariant of paths (what has been matched so far, by structure of the tree), completeness by joining walks through the transitions; expansion by counting repetitions; positions by intervals |
| C116 | table of several types | a map from keys to typed values with lists of released and handed back pointers; one invariant over all histories relates table, free functions, calls, and counts of pointers and blocks |
| C117 | replacing matches | a relation says what a template stands for, another what a text with replaced matches is; the loop over the template by induction on its length, the loop over matches by induction on their list, on top of C114 |
| C118 | file permissions | one permission of one class at a time: `want` says what a request makes of it; every mode computed is characterised bit by bit; histories of setters against the last word said |
| C119 | JSON search expressions | steps as a small syntax with its meaning (`eval`, by recursion over steps, with all nodes below a node for `..`) and its text form; splitting the text gives the segments; the search is a permutation of the meaning by induction over the size of the node |
| C120 | tables as CSV | CSV writing and loading of a table, over the models of tables and CSV; round trip by splitting the written text into tokens; loading as a function on grids (`joined`) that does not use the model's functions |
| C121 | domain names and email addresses | the checks over the models of splitting, quotes and brackets; a grammar of its own (`Domain`, `Email`, `Entry`), equivalence in both directions by tagging each character with whether it is in quotes |
| C122 | merging INI files | the merger over the model of the INI object; a table of its own (`Kept`) over the values of a key in the three objects; each of the four loops changes the values of its key only, and the keys an object lists are apart and usable with the others |
| C123 | thread local storage | threads as places inside the calls, a step per section under the lock and per access to the own table; every event of the history is judged by the history before it (`Good`); an invariant over all schedules: the table of a thread is what its history says, and values given = values destroyed + value held |
| C124 | hex dumps | a printer over byte lists; a reader that knows the flags only and checks every column (`readRows`, `Header`); induction over the lines, with lemmas that numbers fit their column and are read back |
| C125 | code pages | the tables as data, compared with mappings from another source (`Std`, taken from Python's codecs); `Enc`, `Dec` and `Clean` say what a conversion yields under each handler; induction over the text |
| C126 | merging tables | over the model of the table; the result is a grid given by `joined`; a row is put by setting cells, which adds columns, by induction over the cells and then the rows |
| C127 | tables as JSON | documents and text are those of C47 to C49; values by row and name (`look`, `member`); loading makes a table of its own first and merges it, both are joins of grids |
| C128 | tables as Markdown | a line is taken apart into sections between pipes (as split in C56), each of which trims to its cell; the text is the lines joined; loading appends columns and sets cells, by induction over both |
| C129 | tags, lines and memory buffers of the log | sets of tags by bits over C34; the two hash tables of names stand for one map from tags to names, by induction over the calls, with reading freed memory as no result; lines by an inductive specification; what each module gets of a message by induction over lines and modules; the buffer as a prefix of the messages |

This table was the plan; what has been proved is recorded in `MANIFEST.json` (status and note per property) and below.

## What is modelled

| modules under `lean/Verif` | code in `/repo` | left out |
|---|---|---|
| Sort, Qsort | `base/sort/m_sort_*.c` | |
| MList | `base/list/m_list.c` | allocation failure |
| Hash | `base/hash/m_hashtable.c` | typed wrappers (`m_hash_*`), the string hash functions themselves (any hash function is allowed) |
| LList, SkipList, Queue, Cache | `base/list/m_llist.c`, `base/data/m_queue.c`, `base/cache/m_cache.c` | queues with a comparator; the callbacks that copy and free values |
| Sql, ConnPool | `sql/m_sql_trans.c`, `M_sql_stmt_execute`, `sql/m_sql_error.c`, acquire, release and stop of `sql/m_sql_connpool.c` | drivers, group inserts, binding, results, choosing hosts, clocks, starting a pool; that a failed commit commits nothing and a failed rollback means a lost connection is assumed |
| IoBuffer | all callbacks of `io/m_io_buffer.c` but reset, with the soft events of `M_io_read` and `M_io_write` | errors and disconnects, buffering of one direction only, the event loop (assumed edge triggered) |
| StrFmt | all of `base/data/m_str_fmt.c` but the digits of a `double` | floating point (the text of a `double` for a precision is a parameter), overflow of `ssize_t`, allocation failure, platforms other than LP64 |
| FsFile | `base/fs/m_fs_file.c`, reading, writing and seeking in `base/fs/m_fs_file_unx.c`, and the part of `base/fs/m_fs.c` that copies and moves one regular file | directories, symlinks, permissions, path normalisation and progress contents in `m_fs.c`; `fsync`; a 32 bit `off_t`; other processes; overflow of positions |
| Tz | `base/time/m_time_tz_rule.c`, `base/time/m_time_tz_dst_rules.c`, `base/time/m_time_tz_olson_transitions.c`, the two adjustments of `base/time/m_time_tz_olson.c`, `M_time_tolocal` and `M_time_fromlocal` of `base/time/m_time_local.c` with a zone | reading TZ strings, INI, registry and TZif data; conversion with the system zone; overflow; cutting abbreviations to 31 bytes |
| StateMachine | `base/data/m_state_machine.c`: creation, insertion, running, cleanup, reset | descriptions, trace callbacks, duplication and destruction, removal of states; callbacks are functions of the user data, which the machine only passes on |
| GroupInsert | `sql/m_sql_connpool.c`: `M_sql_stmt_groupinsert_prepare`, `M_sql_connpool_close_groupinsert`; `sql/m_sql_stmt.c`: `M_sql_stmt_execute` for group inserts, `M_sql_stmt_destroy` | sections under `pool->lock` are single steps; each call binds one complete row; the database answers success or an error, and an error to a commit means that nothing was committed; one group insert of a thread at a time; error texts, traces, delays |
| SqlQuery | `sql/m_sql_driver_helper.c`: `M_sql_driver_queryformat`, `M_sql_driver_stmt_bind_rows`, `_cnt`, `_get_type`; `sql/m_sql_stmt.c`: `M_sql_stmt_prepare`, `M_sql_conn_execute`, `M_sql_conn_execute_rows`; the `*_num_process_rows` and bind loops of the drivers; the end of `pgsql_cb_execute` | the statement cache and rebinding, fetching, traces; a bound value is its type and a number; what prepare and execute of a driver answer is arbitrary; Oracle and ODBC arrays are taken to hand over the rows as they are |
| ProxyProto | `io/m_io_proxy_protocol.c` 114-1256: the states of the reader, inbound and outbound processing, read callback, building, setting endpoints, reset | address conversion (`M_io_net_ipaddr_to_bin`, `_to_str`) is an oracle with stated laws; the state machine library is the two lists of states (module StateMachine models it); disconnect, destroy and the getters are not modelled |
| Ini | `formats/ini/m_ini.c` (values, keys, sections, copies), `m_ini_kvs.c`, `m_ini_element.c`, `m_ini_reader.c`, `m_ini_writer.c`, `m_ini_settings.c` | `M_ini_kv_rename`, the merger, file access, allocation; hash tables are association lists in order of insertion, compared without case |
| Getopt | `base/data/m_getopt_parse.c`, `base/data/m_getopt.c` (adding options) | the help text, descriptions, null callbacks, the special argument of OS X; the hash tables are association lists |
| Table | `formats/table/m_table.c` | copying tables, null comparison functions (merging and the CSV, JSON and Markdown forms are modules of their own); hash tables are association lists; the random numbers of the identifiers are an input |
| Shaping | `io/m_io_bwshaping.c` | `M_io_bwshaping_reset_cb` (after it the slots are `NULL`), registration of the timer, locks; the ring of slots is a list; counts of bytes are not reduced modulo 2^64 |
| Re | `text/re/mtre/regexec.c`, `text/re/mtre/regcomp.c` from `tre_copy_ast` on (writing out counted repetitions, positions, transitions, `mregcomp`), `text/re/m_re.c` (`M_re_sub`, `M_re_find_all`, `M_re_search`, `M_re_eq_start`, `M_re_eq`, `M_re_matches`), `text/re/m_re_match.c` (lookup and shift) | of `text/re/mtre/regcomp.c` the parser and `tre_add_tags` (which tags are put where, their directions); a bracket expression is one node with several ranges, as is a letter when case is ignored; character classes, `M_re_sub`, `M_re_find_all`; running out of memory; more than 99 submatches; which code points are letters or digits is a parameter |
| HashMulti | `base/hash/m_hash_multi.c` | the hash tables are one association list with tagged keys (order of destruction is insertion order); case folding is a parameter; objects hold a typed image instead of bytes with alignment; `get_bin` is asked for value and length |
| FsPerms | `base/fs/m_fs_perms.c`, `base/fs/m_fs_perms_unx.c`, `M_fs_info_mode_to_perms`, `M_fs_dir_mkdir_sys` | path handling, the user and group databases (a parameter), failures of the system calls, null objects, class numbers outside the three, Windows |
| JsonPath | `formats/json/m_json_jsonpath.c` | arrays of 2^31 or more elements, the array of matches in memory; members are taken in the order of the document (the hash table of an object keeps it) |
| TableCsv | formats/table/m_table_csv.c (all), base/data/m_buf.c `M_buf_add_str_quoted` | null tables; the escape character is always the quote |
| Verify | `text/verify/m_verify.c` (all) | null pointers given by the caller |
| IniMerge | `formats/ini/m_ini_merger.c` (all) | null pointers given by the caller; a callback whose answers depend on more than its arguments; the sorted lists of values are searched by membership (their search is C05 and C06) |
| ThreadLocal | `thread/m_thread_tls.c:47-212` | `M_thread_tls_init` and `M_thread_tls_deinit`; destructors that call these functions themselves; the lock is taken as correct, and so are the hash tables (C09); out of memory |
| Hexdump | `base/data/m_str_hexdump.c` (all); `base/data/m_buf.c:747-757`, `:896-919` | sizes that wrap because a line is nearly as long as the address space; null data with a length; the printing of numbers by `M_snprintf` is taken as the plain digits |
| Codepage | `text/textcodec/m_textcodec_cp_map.c`, `m_textcodec_utf8.c` and the tables of the 28 pages (all); `text/textcodec/m_textcodec.c:106-280`, `:304-313`, `:348-357` | NULL input and invalid parameters; codec names; the hash table behind the look up is taken as the first matching entry |
| TableMerge | `formats/table/m_table.c:761-812` | null pointers, merging a table with itself, destroying the source |
| TableJson | `formats/table/m_table_json.c` (all) | null pointers |
| TableMd | `formats/table/m_table_markdown.c` (all) | null pointers, zero bytes in the text |
| LogTags | `log/m_log.c:33-46`, `:88-101`, `:229-252`, `:403-515`, `:586-740`; `log/m_log_membuf.c:31-103`, `:140-143` | null pointers, locks, what time stamps and prefixes look like, time formats that are not valid, modules without a write function, checks and filters that change during a call, zero bytes in what is written, expiry callbacks, other modules |
| Bincodec | `base/bincodec/*.c` | |
| Utf8, Chr | `base/utf8/m_utf8.c`, `base/data/m_chr.c` | case tables, locale |
| Num | `base/data/m_str_num.c` | |
| PatMatch | `base/data/m_str_patmatch.c` | |
| Decimal | `base/math/m_decimal.c`, `m_operator.c` in part | |
| Time | `base/time/m_time_gm.c`, `m_time_elapsed.c` in part | time zones, system clock |
| Bits, Bitlist, Bithacks | `base/data/m_bit_buf.c`, `m_bit_parser.c`, `m_bitlist.c`, `base/math/m_bithacks.c` | hash table variants of the bit list |
| Crc, Mem | `base/mem/m_mem.c`, `m_endian.c` | |
| RwLock, Pool, Pipe, Timer | `thread/m_thread_rwlock_emu.c`, `m_threadpool.c`, `m_thread_pipeline.c`, `io/m_event_timer.c` | system mutexes and conditions, which are trusted |
| Buf, Parser | `base/data/m_buf.c`, `m_parser.c` | printf-style additions; some typed reads |
| Str | `base/data/m_str.c` in part | locale, justification, money |
| Csv, Json, Textcodec | `formats/csv`, `formats/json` reader and writer, percent, quoted-printable and Punycode codecs (`text/textcodec`) | JSONPath, CSV column names and callbacks |
| Tls | `tls/m_tls_hostvalidate.c` | OpenSSL, IP address text |
| Xml | `formats/xml/m_xml_entities.c`, `m_xml_reader.c`, `m_xml_writer.c`, tree functions of `m_xml.c` they use | XPath, line and column of errors |
| Rand | `base/math/m_rand.c` | a null state; how the seed is made up when none is given |
| Dict | `base/hash/m_hash_dict.c:275-500` | the table itself is C14; a null text |
| FsPath | `base/fs/m_fs_path.c:43-95, 153-349, 556-570`, `base/fs/m_fs_path_norm.c:52-551` | the system calls (current and home directory, environment, reading links) are parameters; access checks; `M_fs_path_user_confdir` and temporary names |
| AsyncWriter | `log/m_async_writer.c:68-686` | each locked section is one step, the callbacks are steps of their own with any answer; memory allocation does not fail; `M_thread_cond` may wake for no reason; line endings (`writer_line_end`) and the choice of the mode at creation; two callers waiting at once in `M_async_writer_destroy_blocking` |
| Http | `formats/http/m_http_reader.c:247-1298`, `formats/http/m_http_header.c`, `formats/http/m_http_headers.c:34-145, 229-297`, `formats/http/m_http_simple_writer.c:32-375`, `formats/http/m_http.c:186-406` | the validity of a request target is a parameter; counters are unbounded; memory allocation does not fail; cookies and the decoded fields of a type in `M_http_t`; the simple reader |

Each definition names the lines it stands for; a simplification is stated where it is made.

## Where the code disagrees with a property

The entries are backed by theorems, most of them on a concrete input (names ending in `_fails`, or listed with the property in
`MANIFEST.json`); what does hold is proved under a `_partial` name.

* **Sorted insertion (C04)**: the position may lie before an equal element.
* **Lists (C05-C08, C53)**: `insert_at` beyond the end inserts before the last element; `swap` with an index out of range reads or writes
  past the array; on stack lists `insert_at`, `remove_range` and `remove_val` use unconverted indices; `remove_duplicates` on sorted
  lists loses elements; removing all copies of a pointer from a sorted list deletes another element; `replace_at` breaks set lists.
* **Hashtable (C10)**: after `multi_remove` an enumeration announces a wrong number of entries.
* **Linked list (C14)**: removing the only node of a circular list, and removing all matches from one, go wrong.
* **Cache (C12)**: with a value-duplicate callback a duplicate of the key is stored.
* **base64/base32/hex (C15-C18)**: two pads on different lines are not decoded; text of white space only is read before its start; base32
  appends zero bytes, reads past its input and writes past its output; hex refuses an odd number of line breaks and drops an odd digit
  when the total length is even.
* **UTF-8 (C19, C20)**: code point 0 is not advanced over; noncharacters of planes 10-15 are accepted; index = count succeeds.
* **Integers (C22, C23)**: some overflows are missed; a `0x` prefix followed by digits is not recognised.
* **Wildcards (C21)**: escapes inside brackets, and case-insensitive ranges.
* **Decimals (C24, C25, C55, C69, C70)**: comparison of pairs that cannot be aligned; products of more than 127 places wrap; aligning
  INT64_MIN is undefined; rounded and large quotients are wrong with success; texts of 20 and more places are wrong (64: division by
  zero); more than 18 decimals, white space after the point and some exponents are read wrongly; the length is ignored before an exponent.
* **Time (C27)**: carrying more than a year of days outside January uses the wrong year length.
* **Bits (C28, C29)**: unused bits of a partial byte leak; a constant parser reads a byte past its source; lengths near 2^64 write before the
  destination; a short signed read reports success; counting includes unused bits.
* **CRC-16 (C35)** of the empty message is 0. **Backward search (C36)** for an empty needle gives the start.
* **Thread pool (C38)**: a task dispatched while the last thread ends for idleness is never run; the number of threads can fall below the minimum.
* **Pipeline (C42, C43)**: shutdown can block for ever; failed and aborted are confused once the pipeline is down.
* **Timers (C44)**: up to a millisecond early; a refused start fires at once; a start time set in the own callback is forgotten.
* **Buffer (C30)**: merging a buffer something was dropped from copies the wrong bytes; justified additions after a drop are misplaced or
  outside; growth above 2^63 does not end; no terminator after an empty direct write.
* **Parser (C31, C32)**: stale mark after an append at the end; wrong column after a rewind; a short buffer loses bytes; boundary search misses
  patterns after a repeated first byte.
* **Bit list (C33)**: an entry with identifier 0 is listed but refused.
* **Strings (C62, C64-C66)**: `replace_str` duplicates text when a match ends the string; `explode_quoted` overflows its array when delimiter
  and escape agree, and a limit of one is no limit; a part that ends with the escape character is not read back; quote = escape stores before
  the buffer; bytes of 128 and above are never recognised as quote, escape or member of a set.
* **CSV (C45)**: a cell of quotes only gains a quote.
* **Text codecs (C50, C52, C68)**: Punycode encodes long texts it cannot decode; quoted-printable reads outside its digit table for bytes from
  128 on and accepts malformed escapes; replacement writes FF FD, which is not UTF-8.
* **JSON (C47-C49)**: names are written without escapes, empty names are lost, characters above U+FFFF are written with five digits, large
  integers become strings or get a lone quote, one decimal is undefined; missing commas, leading zeros, vertical tabs, `1. 5`, invalid UTF-8
  and escapes cut by a zero byte are accepted, `\u0000` cuts the string, surrogate pairs are refused.
* **TLS host names (C71)**: multilevel wildcards compare labels from the left, so `*.a.com` also covers `x.a.com.evil.org` and does not cover
  `y.x.a.com`; of an alternative name only the first 255 bytes count.
* **XML (C72-C74)**: character references are not decoded, nor `&gt;` and `&apos;` in attributes; a declaration takes the rest of the text as
  its data (and reads past it if no zero byte follows), as does CDATA when text is not to be decoded; references in CDATA are decoded;
  comments after the root and attributes that differ in case are refused; outer white space is lost; comments are written unchecked.
* **Dictionary text (C77)**: the decision to quote looks at `val[val_len-1]` also for an empty value and reads the byte before it; keys are
  written without quotes or escapes; a value that ends in the escape character hides its closing quote when quote and escape differ (the splitter
  takes the escaped escape for an escaped quote); the empty dictionary is written as the empty text, which is not read; hexadecimal codes are never
  decoded and have eight digits above 127; with `ALWAYS_QUOTE` a null value becomes the empty string; a delimiter equal to the escape character
  makes the reader store outside its memory.

* **Paths (C78, C79)**: the value of a variable is put in as one part, so `$H/..` becomes `.` and `$H` as an absolute path becomes `/w//h/u`;
  backslashes split names on Unix too, so the file `a\b` becomes `a/b`; on Windows `\a` loses its root and becomes `a`, and `\` alone is an error;
  `//s/a` is the name of a machine for `M_fs_path_norm` and a relative path for `M_fs_path_dirname`.
* **Links (C80)**: the target of a link goes through the expansion of variables again, so a link to a file `$x` is not followed.
* **Asynchronous writer (C81-C83)**: `replace_one` inserts after the last node, which for an empty queue does nothing: a message the callback refuses is lost, not counted, and its bytes stay counted as stored (`retry_fails`, `leak_fails`), after which a smaller `M_async_writer_set_max_bytes` makes the next write spin for ever with the lock held (`write_hangs_fails`). The number of dropped messages is added again when the message after it is refused (`counted_twice_fails`). A refused report loses the command taken with it (`command_lost_fails`). `M_async_writer_set_command_block` comes back when any command is done, or when the writer is stopped (`block_fails`, `block_stopped_fails`). `M_async_writer_start` returns with the lock held if no thread can be made (`start_fails`). Starting while another thread is in `M_async_writer_stop` makes a second thread (`restart_fails`). `M_async_writer_destroy_blocking` without flush reports no dropped messages, though the header says so (`kill_silent_fails`), and destroying a stopped writer with flush writes nothing (`destroy_stopped_fails`).
* **HTTP reader (C84)**: the bytes of a multipart body are moved to a parser of its own and what is left there is dropped, a boundary or the line end before it that arrives in two pieces is refused or lost, and the step `M_HTTP_READER_STEP_MULTIPART_CHECK_END` is missing from the list at `formats/http/m_http_reader.c:1263-1266`, so the reader waits for ever (`multipart_pieces_fails`).
* **HTTP reader (C85)**: numbers in chunk sizes, lengths and status codes may have a sign, leading white space and anything after the digits, a status code is cut to 32 bits, a coding need only begin with `chunked`, `HTTP/HTTP/1.1` is a version, and the size `0x3` is the last chunk (`lenient_fails`); a chunk size or status code of white space is read past its end (`blank_number_fails`, `base/data/m_str_num.c:32-36`); `chunk_data_done_func` gets the number of the next chunk, although it is documented to get that of the chunk processed (`chunk_number_fails`, `formats/http/m_http_reader.c:844-846`).
* **HTTP headers (C86)**: the text of a modifier after a second equals sign is lost, commas in quotes are separators, a part that is there already is dropped, a header with an empty value is in the list but has no value (`header_text_fails`, `formats/http/m_http_header.c:145-169`).
* **HTTP writers (C87)**: line ends in values, reasons and addresses are written, so that a value can make another header (`writer_fails`); a `Content-Length` in the headers is not compared with NULL data, and `3, 4` is a length; a text whose length is not given passes the check against `Transfer-Encoding` and is sent with both headers (`formats/http/m_http_simple_writer.c:135-163`); data that is not NULL but has no bytes is read if there is a character set; escapes in an address are escaped again if it has a space.
* **Sorted linked lists (C88)**: the documentation promises that a new value goes behind those equal to it; the search for the place goes forward only over smaller values but accepts an equal head, so the third of three equal values goes between the first two (`stable_fails`), and a duplicate can have equal values in another order (`duplicate_order_fails`). `M_llist_duplicate` does not pass on `equality_thunk`. `M_llist_remove_val` with M_LLIST_MATCH_ALL and a pointer that is in the list compares with it after it was freed (not in the model, whose values are not freed).

* **SQL transactions (C89)**: when the user's function returns success though a statement had met a deadlock or a lost connection, `M_sql_trans_commit` (m_sql_trans.c:167-178) rolls back, which gives the connection back and frees it if it was lost or too old, and then asks for the state of that connection (`process_ub_fails`; `process_no_ub_partial` shows that functions that pass errors on are safe).
* **Connection pool (C90)**: signals are sent one per release, but a thread that comes in while a woken thread has not run yet waits behind it; if two connections were released, one stays idle while that thread sleeps, until the next release (`pool_wakeup_fails`). What holds is that some thread has or is getting a connection while any thread sleeps (`pool_awake_partial`).
* **I/O buffer (C91)**: `M_io_buffer_process_read_cb` clears `hit_max_read` before it finds that the buffer is full. If a read event arrives while the buffer holds its maximum, the application's next reads queue no soft event, and bytes below stay there until more arrive (`ioBuffer_unread_fails`). The read buffer also holds 16384 bytes when the given maximum is smaller (`ioBuffer_bounds_fails`).
* **Formatted output (C92)**: `M_str_fmt_add_integer_just` and `M_str_fmt_add_double_just` add the result of the sign, −1 if its write failed, to the length of the rest; with `%+05d` the sign is lost and the result is 3 (`fprintf_error_fails`). `%I` is documented as the size of `size_t`, but when at least two bytes follow it the size stays `int` (`printf_I_fails`), which is undefined behaviour for the argument that the documentation asks for.
- **C93** (`base/fs/m_fs_file.c`).  `M_fs_file_read` copies out of the read buffer only if the operating system
  returned bytes in this very call (line 116): when a file ends and fewer bytes are buffered than asked for, the read
  reports 0 bytes although some are left (`read_end_fails`); asking for fewer would still give them.  `M_fs_file_seek_sys`
  makes no `lseek` at all for offset 0, so seeking to the start or the end of a file does nothing (`seek_zero_fails`).  A
  seek that fails has already dropped the read buffer, and the position jumps ahead (`seek_error_fails`).  Seeks, reads and
  `M_fs_file_close` ignore a failed flush: pending bytes are then written at the new position (`flush_before_seek_fails`)
  or lost although every call reported success (`close_fails`).
- **C94** (`base/fs/m_fs.c`).  Because of the first of these `M_fs_copy` of a file longer than 1024 bytes drops its last
  `length mod 1024` bytes whenever the operating system reads ahead, and reports success (`copy_short_fails`); because of
  the last a copy to a full disk reports success (`copy_close_fails`).  `M_fs_move` to another device then deletes the
  original (`move_loses_fails`, `move_full_fails`).  Copying a file over itself with `OVERWRITE` empties it
  (`copy_self_fails`), and a progress callback that answers "stop" makes a completed move report `CANCELED`
  (`move_cancel_fails`).
- **C95** (`base/time/m_time_tz_rule.c`).  Changes counted from the end of the month are never found, because the check on line
  66 tests `atime.day` (still 0) instead of `start_day` (`last_weekday_fails`), so a zone with "last Sunday" has no DST
  (`berlin_fails`); line 86 would be wrong too.  The POSIX week 5 means the fifth weekday, and DST is off in a year in which either
  month has four only; for Europe that is every year (`fifth_week_fails`).  The length of the repeated hour is the difference of the
  absolute offsets (line 149), negative east of Greenwich, so there DST ends an hour late and instants in that hour do not survive
  the round trip (`east_fails`).  The test for DST spanning the new year is inverted (line 123): southern zones have DST in winter
  and not in summer (`south_fails`).  Month 0 is documented as "DST always" and gives standard time (`always_dst_fails`); the
  abbreviation is not filled in for zones without rules (`abbr_fails`); a change at 24:00 is put two days early (`hour24_fails`).
- **C96** (`base/time/m_time_tz_olson_transitions.c`, `base/time/m_time_tz_olson.c`).  The instant of the first transition counts as
  before it, which shows if that transition is to DST (`first_instant_fails`); with such a table local times just before it are taken
  for UTC (`before_first_fails`).  If the clock is put back between two kinds of standard time the instants of the hour before come
  back an hour late (`same_kind_fails`; the code says it does not support this).
- **C97** (`base/data/m_state_machine.c`).  A state that returns CONTINUE is put on the cleanup list (line 736) although the header
  says it is not (`continue_cleanup_fails`).  ERROR_NO_PREV is never reported: the current id is set to 0 and the next pass
  overwrites the status with ERROR_BAD_ID (`no_prev_fails`).  With ONE_CLEANUP a cleanup that waits is marked as done before it is run and
  never taken up again (`one_cleanup_wait_fails`), and one that fails is run again for the next entry (`one_cleanup_error_fails`).
  STOP_CLEANUP stops nothing (`stop_cleanup_fails`).  PAUSE naming a state that does not exist returns PAUSE
  (`pause_bad_id_fails`).  A pre function of a sub machine that declines with PAUSE is called again instead of going on with the next
  state (`skip_pause_fails`).
- **C98** (`base/data/m_state_machine.c`).  Reset with a reason clears `running` of an interleaved state, so the cleanups of its machines
  are not run; they run when the state is entered the next time, instead of the machines' states (`reset_interleaved_fails`).
  Reset does nothing if the current id has no state.
- **C99** (`base/data/m_state_machine.c`).  `running` of an interleaved state is not initialised (lines 120 and 176-195); if it is not 0 the pre
  function is skipped and the state never cleaned up (`interleaved_garbage_fails`).  When one machine fails the others are left in the
  middle of their work without cleanup and go on there the next time (`interleaved_abort_fails`).

- **C100, group inserts report success for rows that were not inserted.** The callers that did not run the statement get `stmt->last_error`
  (`sql/m_sql_stmt.c:425`), which is only set by preparing and executing. If the transaction cannot be started (the pool was stopped), or if
  the commit fails for good, the caller that ran the statement gets the error and all others get success though nothing was inserted:
  `success_inserted_fails`, `success_commit_fails`. `success_inserted_partial` excludes this, `success_inserted_runner` holds without.
- **C101, white space around the query of a group insert.** The table of open groups is keyed by the query as given
  (`sql/m_sql_connpool.c:1510`), the entry is removed under the trimmed query (1546). With white space around the query the entry stays after
  the group is closed, and the next caller is given the finished, then freed, statement: `no_use_after_free_fails`. All theorems about groups
  assume queries without surrounding white space.
- **C102, tokens joined and strings changed.** White space between two of the listed characters is dropped, so `a - -1` is sent as `a--1`,
  where `--` starts a comment (`squeeze_comment_fails`). Quotes are not looked at: in the only statements that may hold strings, `CREATE TABLE`,
  a default of `'x, y'` is created as `'x,y'` (`squeeze_literal_fails`). `squeeze_runs_partial` needs that no white space separates two listed
  characters.
- **C103, the wrong group is repeated.** `sql/m_sql_driver_helper.c:105` takes the first `VALUES(` anywhere: with a table named `pvalues` and a
  list of columns the columns are repeated (`placeholders_name_fails`). Placeholders behind the group are not repeated, but their values are bound
  once for every row (`placeholders_outside_fails`).
- **C104, PostgreSQL.** Batches of 100 rows have no limit on values, so tables of more than 655 columns exceed the 65535 of its protocol
  (`pgsql_limit_fails`). An insert without bound values is compared with zero executed rows, so it is reported as a conflict although its row was
  inserted (`pgsql_insert_fails`, `sql/postgresql/mstdlib_sql_postgresql.c:726-735`).
- **C105, terminators.** `M_sql_stmt_prepare` accepts a `;` at the end, `include/mstdlib/sql/m_sql_driver.h:396` says it is stripped, but it stays
  (`terminator_kept_fails`), and for PostgreSQL ` ON CONFLICT DO NOTHING` is appended behind it (`terminator_fails`).
- **C106, text headers in pieces.** The functions for the fields of a text header give up when their delimiter is not there and
  at least 5 bytes (ports) or 40 bytes (addresses) are (`io/m_io_proxy_protocol.c:306`, `:343`): a valid header that arrives cut
  right behind a five digit source port, or between the digits of a four or five digit destination port and the end of its line
  end, is refused (`text_pieces_fails`, for every such cut).
- **C106, extensions without addresses.** `state_v2_header` calls `M_parser_consume(handle->parser, handle->v2_dlen)` without
  waiting for that much (`io/m_io_proxy_protocol.c:442`): nothing is consumed then, and the extensions reach the
  application as its data (`unspec_pieces_fails`).  A test with the whole header in one read passes.
- **C106, others.** "PROXY UNKNOWN" followed by addresses is refused though the protocol says it must be accepted
  (`unknown_text_fails`), so is a LOCAL header with ports 0 (`local_zero_fails`); a reset leaves "relayed" (`reset_local_fails`);
  `M_io_proxy_protocol_set_source_endpoints` never releases the layer it acquired, so the connection stays locked
  (`endpoints_lock_fails`).
- **C107.** Ports ending in garbage and addresses of another family than announced are accepted (`text_port_fails`,
  `text_family_fails`); a PROXY header of unspecified family is reported as relayed, without addresses (`proxy_unspec_fails`); a
  peer that closes right behind header and data loses both when one event sees them (`close_fails`); a read that finds
  buffered data and an error below loses the data (`read_error_fails`).
- **C108.** With blanks ignored, of two blanks next to each other only the first is removed, so the name changes when it is
  reduced again: `M_ini_kv_has_key` (which reduces twice) denies a key that `M_ini_kv_get` finds (`hasKey_fails`).  A key of
  nothing but blanks is refused by the table but kept in the list of keys, and the enumeration (copy, writing) then loses the
  last key (`enumerate_fails`).  `M_ini_kv_keys` lists "/x" as "x" (`keys_fails`).  A key without values has a null pointer as
  its value in a copy (`duplicate_fails`).
- **C109.** With a quote character but no escape character (or the line end as escape character) the second loop of
  `M_ini_explode_lines` sees other quotes than the first one, because it overwrites the line ends, and stores lines outside the
  array (`explode_fails`: a text of five characters).  With blanks ignored, a key with two blanks next to each other is stored
  under a name that its own spelling does not find (`readKey_fails`).  `M_INI_DUPKVS_COMMENT` and `M_INI_DUPKVS_REMOVE` are
  documented as "first wins", but the last value wins (`firstWins_fails`).

- **C110.** A value with a comment character in it is written without quotes and cut when it is read (`comment_fails`); of white
  space at the ends only blanks are quoted, a tab is lost (`tab_fails`); without a quote character, as in the settings that are
  created by default, a value with a blank in front is lost altogether (`noQuote_fails`).  A key without values gets a null pointer
  (`noValue_fails`).  `M_INI_MULTIVALS_USE_LAST` ("use the last value") writes all values of a key that is not in the tree yet
  (`useLast_fails`).  A section whose keys were all removed goes out of the table at the next write, but its header stays among the
  elements: if the section gets a key again it is written twice (`twice_fails`).  The key "/x" is written as "x" (`slash_fails`).
- C111: after the loop over a group of short options `M_getopt_parse_option_short` does not return but processes the first option
  again with the value of the last one.  In `-vo f x` the callback of `-v` is called twice (`group_fails`); in `-on 7 x`, where `-o`
  may have a value, it gets the value of `-n` and `x` is skipped (`group_lost_fails`); `-vo=f` is refused after both callbacks
  were called (`group_joined_fails`).  A number followed by other text is accepted (`trailing_fails`).

- C112: `M_table_column_set_name` only adds to the table of names: a column renamed or unnamed is still found under its old name
  (`rename_fails`, `clear_fails`), after its removal values set under the old name are lost although the call succeeds
  (`removed_fails`), and a column can be given another column's name although the header says this fails (`take_fails`).
  `M_table_column_sort_data_at` tests `idx <= len` and so never sorts (`sortAt_fails`).  `M_table_cell_set_dict` succeeds for a row
  that does not exist (`dict_fails`).  `generate_id` looks for identifiers in use only among named columns and rows with values,
  and accepts zero at once, so two unnamed columns or empty rows can be one (`id_fails`, `rowid_fails`, `zero_fails`; this needs a
  repeated 64 bit random number).

- C113: a slot of the bandwidth layer is dated by its first byte, so a window of the whole period can carry nearly twice
  `Bps * period` (`window_fails`).  In trickle mode the check ends a slot at `>=` and the record at `>` the sample frequency: in the
  millisecond between, any number of bytes passes (`trickle_fails`).  `M_io_bwshaping_slots_add` gives `NULL`, which is used, when
  the layer below takes long between check and record (`full_fails`) and, because `M_io_bwshaping_accept_cb` copies the settings
  without making slots for them, on accepted connections (`accept_fails`).  `Bps * period_s` can overflow to 0, then a missing slot
  is used (`overflow_fails`).  The time to wait reads the clock again and can become negative, that is no timer (`underflow_fails`).
  Setting the rate to "no limit" leaves a writer that waits without a timer (`unthrottle_fails`).

- C114: when two paths arrive at the end together and the second has the better tags, it replaces the match found
  so far without a comparison of the starts (`regexec.c:436-449`), so a match that starts later is reported
  (`leftmost_fails`). `M_re_eq` compares the match that a search reports with the text, so a lazy pattern that matches
  the whole text is rejected (`eq_fails`); the header says it is the same as adding `^` and `$`. `M_re_search` drops every
  capture from 0 to 0, and `M_re_matches` takes a missing capture 0 for an error: it returns NULL for every text when the
  pattern can match nothing (`matches_null`), also when it found matches before (`matches_fails`). It searches the rest as
  a text of its own, so `^` holds after every match (`matches_bol_fails`). When nothing matches it returns an empty list;
  the header says NULL.

- C115: `tre_expand_ast` gives copies of counted repetitions new positions and moves what follows. Inside nested repetitions
  the offset is set back (`regcomp.c:2068`, `:2163-2167` restore it except at the outermost level), so later characters get a
  position that a copy has already: `((a{2})*b)*` matches "ab" (`compile_deep_fails`). The offset grows by the number of
  literals copied, which is less than the width when `{0}` dropped a literal but not its position: `(ab{0}c){2}` matches "aac"
  (`compile_gap_fails`). When a part can match nothing in two ways only the assertions of one are kept (`:2309-2404`), also for
  a repetition that need not occur: `(^)*b` finds nothing in "ab" (`compile_calm_fails`).

- C116: `M_hash_multi_create_object` returns NULL for NULL data before the comment that NULL is allowed for binary data
  (`m_hash_multi.c:83-92`): insertion succeeds, but the key has no type and does not read as binary (`get_null_fails`).
  `M_hash_multi_str_insert_bin` and `_vp` do not check for an empty key as the others do, and lose the object when the table
  refuses it (`memory_leak_fails`). All insertions release the old value before copying the new one, so a string or binary
  value read from a key cannot be stored under the same key (`alias_same_fails`).

- C117: since `M_re_matches` returns NULL for patterns that can match nothing (C114), `M_re_sub` returns the text unchanged
  for them (`sub_null`, `sub_fails`). The number in `\g<N>` is read by a function that skips white space and accepts signs, so
  `\g<+1>` and `\g< 1>` are references and `\g<-1>` vanishes (`template_fails`). There is no way to write a backslash in
  front of a digit.
- C118: `M_fs_perms_update_mode_from_perms` (base/fs/m_fs_perms_unx.c:135-155) computes the user's, the group's and the
  others' part each from the mode the path had and ors the three results, so what one part clears the other two put back:
  `M_fs_perms_set_perms` never takes a permission away (`never_removes`, `set_perms_fails`: asking for exactly `rw-------`
  on a file with mode 666 leaves 666). The mode is also rebuilt from the nine permission bits, so the sticky, set-user-id
  and set-group-id bits are lost (`special_fails`). `M_fs_dir_mkdir_sys` asks for the mode of a file, so directory
  overrides are ignored (`mkdir_fails`). `M_fs_perms_dup` assigns `group_mode` twice and `group_type` never
  (base/fs/m_fs_perms.c:103-104): a duplicate of "remove write from group" means "group has exactly write" (`dup_fails`).
  `M_fs_perms_merge` copies the numbers but not the names of user and group: the owner set in the second object is either
  lost or differs from the name reported (`merge_owner_fails`); and it never destroys the second object, contrary to its
  documentation (`merge_leak_fails`).

- **C119, searching JSON** (formats/json/m_json_jsonpath.c).  The text before the first dot of `$.a` is
  blank, and a blank segment means `..` (lines 219-225), so `$.a` finds every `a` in the document
  (`root_child_fails`).  A bracket is given up on at an object (line 229) before the recursion, so
  `$..[0]` finds nothing in `{"a":[1]}` (`deep_index_fails`).  `[*]` passes `search_recursive` on to the
  next segment (line 250), so `$..[*].a` finds nodes that are not in an element, and others twice
  (`deep_all_fails`).  An index before the beginning of the array makes the whole list select nothing
  (`bad_index_fails`), and so does a slice that begins there (`slice_fails`).  Names are compared without
  case (`case_fails`); `$` alone finds nothing (`root_only`).

- **C120** (`formats/table/m_table_csv.c:67`): without a header the loop that should add missing columns has its bounds the wrong way round: a CSV wider than the table loses its values (`wide_fails`), a narrower one adds columns nobody asked for (`narrow_fails`).  A header without a name makes `colidx` be read before it is set (`unnamed_fails`) or puts the value into the column before (`unnamed_later_fails`).  Two columns of one name become one (`doubled_fails`).  The writer does not quote values with spaces at the ends (`trim_fails`); a value of quotes only gains a quote on reading (`quotes_fails`); the last row of a single column is lost if empty (`last_row_fails`).

- **C121** (`text/verify/m_verify.c:64`, `text/verify/m_verify.c:349`): the header says that escaped quotes may be used in a quoted display name, but neither quote nor backslash is in the character set (`escaped_quote_fails`).  A list with one address is checked without trimming, a list with two is trimmed (`single_space_fails`).

- **C122** (`base/list/m_list.c:548`, `formats/ini/m_ini_merger.c:218`, `:234`): the values of a key with several are looked up with `M_list_str_index_of`, which never finds the null pointer, so a value without a text counts as missing from both other objects: merging three equal objects with the values NULL and "a" gives NULL, "a", NULL (`null_fails`). A key whose values were removed with `M_ini_kv_remove_vals` is not in the current object for `M_ini_kv_has_key`, but the merger goes by the list of keys and brings it back with a null value (`valueless_fails`, `formats/ini/m_ini_merger.c:89-119`).

- **C123** (`thread/m_thread_tls.c:180-189`): setting NULL is meant to clear the value, but after the value was removed an entry with the null pointer is put in its place, so the destructor is called with NULL when the thread ends or sets another value (`cleared_fails`). Setting the pointer that is already set runs the destructor on it and keeps it: the thread gets a pointer that was destroyed, and it is destroyed again later (`twice_fails`).

- **C124** (`base/data/m_str_hexdump.c:34`, `:91`, `:110`): with a header and the text column and one or two bytes per line, the title of the text column is longer than the column, the difference of the two sizes wraps, and the function asks for about 2^63 fill characters (`header_fails`, `dump_partial` says that these are the only cases). With one byte per line the column of the digits in the header is one character wider than in the lines (`base/data/m_str_hexdump.c:72-73`).

- **C125** (`text/textcodec/m_textcodec_cp_map.c:62-68`): `M_utf8_get_cp` sets the position to NULL when the text is not UTF-8 and `M_utf8_next_chr` of NULL is NULL, so encoding to any page with the handlers REPLACE or IGNORE reads through NULL for every invalid text (`encode_invalid_crash`, `encode_invalid_fails`). `text/textcodec/m_textcodec_int.h:54`: the replacement when decoding is the bytes FF FD, which are not UTF-8, instead of EF BF BD for U+FFFD (`decode_replace_fails`, `clean_decode_fails`). `:53`: the replacement `?` is byte 3F also in the EBCDIC pages, where it is the control character SUB (`question_fails`). `text/textcodec/m_textcodec_utf8.c:35-41`: IGNORE keeps the invalid bytes (`utf8_ignore_fails`).

- **C126** (`formats/table/m_table.c:803-807`): empty cells of the source are written too, so if the destination compares names without case and the source has columns `A` and `a`, the empty cell under one erases the value under the other (`case_fails`). The columns of a source without rows are not added (`no_rows_fails`).

- **C127** (`formats/table/m_table_json.c:56`, `:89`): the objects are first put into a table that compares names with case, so `[{"A":"x"},{"a":"y"}]` loaded into a table that compares without case loses the `x` (`case_fails`). `:130-133`: empty cells are not written, so a column without any value is lost and the order of the others is that of their first values (`columns_fails`). Names of columns are written without escapes (as in C48), so a table with a column `a"b` is written as text that is not JSON (`name_fails`).

- **C128** (`formats/table/m_table_markdown.c`): pipes and line feeds in values are written as they are, so a table with one cannot be loaded again (`pipe_fails`). Without outer pipes a row without a value in a table of one column is written as an empty line, which is refused (`empty_fails`). `:103-112`, `:195-208`: loading into a table that has columns adds the new ones after them but sets values from the first column on, so they end up under other names (`columns_fails`). `:394-405`: a text refused after its header leaves the columns of the header behind (`refused_fails`). `:67-68`: the test for a pipe at the end of a line compares with a carriage return; that does no harm since splitting drops an empty last section.

- **C129** (`log/m_log.c:432-441`): clearing the name of a tag takes the length of the old name after the hash table that holds it has freed it (`clear_fails`).

## Testing the theorems

`tools/mutate.py` applies the edits of `tools/mut/*.json` one at a time to a scratch copy of the model and rebuilds it; `seeded/LOG.jsonl` has one
line per edit with the theorems that failed, and those tightened when an edit survived.
