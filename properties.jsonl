{"id": "C01", "title": "Singly linked list behaves as a sequence", "statement": "Starting from slist_create, after any sequence of successful slist_insert_head, slist_append_tail, slist_append(node), slist_pop and slist_node_next_pop calls, walking from slist_head with slist_node_next visits exactly the children an abstract sequence would hold, in order; slist_count is its length, slist_tail is its last node (or NULL), and pop returns the first child.", "quantifier": "every finite history of list operations, every choice of node for the node-relative operations, every child value", "why_tests_cant": "a test exercises a few short histories; a stale tail pointer or count only shows up after particular interleavings of head, tail and node operations", "anchors": ["src/slist/slist_insert_head.c:slist_insert_head", "src/slist/slist_append_tail.c:slist_append_tail", "src/slist/slist_append.c:slist_append", "src/slist/slist_pop.c:slist_pop", "src/slist/slist_node_next_pop.c:slist_node_next_pop", "src/slist/slist_head.c", "src/slist/slist_tail.c", "src/slist/slist_count.c"]}
{"id": "C02", "title": "Doubly linked list behaves as a sequence in both directions", "statement": "Starting from list_create, after any sequence of successful list_insert_head, list_append_tail, list_insert(node), list_append(node) and list_pop calls, the forward walk (head/next) visits the abstract sequence, the backward walk (tail/prev) visits its reverse, and list_count is its length.", "quantifier": "every finite history of list operations and every node chosen for node-relative operations", "why_tests_cant": "the prev/next mirror invariant must hold after every interleaving; tests check a handful of shapes", "anchors": ["src/list/list_insert_head.c", "src/list/list_append_tail.c", "src/list/list_insert.c", "src/list/list_append.c", "src/list/list_pop.c", "src/list/list_node_next.c", "src/list/list_node_prev.c", "src/list/list_count.c"]}
{"id": "C03", "title": "Swapping two lists exchanges them completely", "statement": "After slist_swap(a,b) (resp. list_swap) every later operation sees the two lists exchanged: in particular a node-relative append after the last node of what is now a's sequence updates a's tail and count.", "quantifier": "every pair of lists, every node of either list, every later operation", "why_tests_cant": "existing swap tests only count/walk after the swap and never do a node-relative operation afterwards", "anchors": ["src/slist/slist_swap.c:slist_swap", "src/list/list_swap.c:list_swap", "src/slist/slist_append.c:slist_append"]}
{"id": "C04", "title": "A list owns each child exactly once", "statement": "For every history of slist operations ended by slist_clear or by releasing the list, when every release succeeds, each child ever inserted has been either handed back to the caller (pop / next_pop) or released by the list, exactly once, and never both.", "quantifier": "every finite history, every child, all points at which the list is cleared or released", "why_tests_cant": "double release and leak depend on the whole history, not on a single call", "anchors": ["src/slist/slist_clear.c", "src/slist/slist_create.c:slist_resource_release", "src/slist/slist_node_release.c", "src/slist/slist_pop.c", "src/slist/slist_node_cleanup.c"]}
{"id": "C05", "title": "A failed pop is reported to the caller", "statement": "If the node of the popped element cannot be reclaimed, slist_pop / list_pop / slist_node_next_pop must return that failure; a success status always comes with the popped child (or with an empty list).", "quantifier": "every list content and every outcome of the allocator's reclaim and of the child's release", "why_tests_cant": "reclaim failure cannot be triggered with the malloc allocator used by the tests", "anchors": ["src/slist/slist_pop.c:slist_pop", "src/list/list_pop.c:list_pop", "src/slist/slist_node_next_pop.c:slist_node_next_pop"]}
{"id": "C06", "title": "Queue is FIFO with push-front", "statement": "For every history of queue_append, queue_push and queue_pop, the pops return exactly what an abstract double-ended sequence returns, queue_count is its length, and popping an empty queue succeeds with no resource.", "quantifier": "every finite history of queue operations and all children", "why_tests_cant": "ordering must hold over unbounded histories", "anchors": ["src/queue/queue_append.c", "src/queue/queue_insert.c", "src/queue/queue_pop.c", "src/queue/queue_count.c"]}
{"id": "C07", "title": "Red-black tree is a faithful ordered map", "statement": "For every history of rbtree_insert and rbtree_delete, a key is found by rbtree_find exactly when it was inserted and not deleted since, the value found is the one inserted, and rbtree_count is the number of live elements.", "quantifier": "every finite history of inserts and deletes, every key", "why_tests_cant": "loss of elements needs a particular shape reached only through a specific interleaving of inserts and deletes (shortest known: eleven operations)", "anchors": ["src/rbtree/rbtree_insert_node.c", "src/rbtree/rbtree_insert_fixup.c", "src/rbtree/rbtree_remove_node.c", "src/rbtree/rbtree_delete_fixup.c", "src/rbtree/rbtree_find_node.c"]}
{"id": "C08", "title": "Red-black tree stays balanced", "statement": "After any history of inserts the tree is a valid red-black tree (black root, no red node with a red child, equal black height on all paths), so lookups take at most 2*log2(n+1) comparisons; the same must hold after deletes.", "quantifier": "every finite history", "why_tests_cant": "balance is a global shape invariant; functional tests do not see it", "anchors": ["src/rbtree/rbtree_insert_fixup.c:rbtree_insert_fixup", "src/rbtree/rbtree_delete_fixup.c:rbtree_delete_fixup"]}
{"id": "C09", "title": "Tree traversal visits the elements in key order", "statement": "Starting at rbtree_minimum_node(root) and iterating rbtree_successor_node visits every element exactly once in non-decreasing key order and then returns nil; maximum/predecessor visits them in the opposite order.", "quantifier": "every tree shape reachable by the API, every node", "why_tests_cant": "requires induction over tree shapes including the upward parent walk", "anchors": ["src/rbtree/rbtree_minimum_node.c", "src/rbtree/rbtree_maximum_node.c", "src/rbtree/rbtree_successor_node.c", "src/rbtree/rbtree_predecessor_node.c"]}
{"id": "C10", "title": "Swapping two trees exchanges them completely", "statement": "After rbtree_swap(a,b) each tree behaves exactly like the other one did before; releasing or clearing one of them does not affect the other.", "quantifier": "every pair of trees and every later operation", "why_tests_cant": "tests only look up existing keys after the swap and keep both trees alive", "anchors": ["src/rbtree/rbtree_swap.c:rbtree_swap", "src/rbtree/rbtree_create.c"]}
{"id": "C11", "title": "Clearing a tree releases every element once even when releases fail", "statement": "rbtree_clear and releasing the tree call the release method of every stored value exactly once regardless of which releases fail, return success iff all succeeded and otherwise the status of one failing release, and clear leaves an empty tree with count zero.", "quantifier": "every tree and every assignment of outcomes to the release methods", "why_tests_cant": "failure patterns are exponential in the number of elements", "anchors": ["src/rbtree/rbtree_clear.c", "src/rbtree/rbtree_delete_nodes.c", "src/rbtree/rbtree_node_create.c:rbtree_node_release", "src/rbtree/rbtree_create.c:rbtree_resource_release"]}
{"id": "C12", "title": "Bump allocations are disjoint, in range and aligned", "statement": "For every history of successful allocations from a bump allocator since creation or the last reset, every returned block lies inside the pool after the allocator's own header, is at an address that is a multiple of 16, and no two blocks overlap.", "quantifier": "every pool size, every sequence of request sizes", "why_tests_cant": "sizes near SIZE_MAX wrap the offset; a test cannot cover all sequences of 64-bit sizes", "anchors": ["src/allocator/bump_allocator_create.c:bump_allocator_allocate", "src/allocator/bump_allocator_create.c:bump_allocator_control"]}
{"id": "C13", "title": "Chomp and trim functions remove exactly the whitespace", "statement": "left_trim, right_trim and trim leave in the buffer exactly the input string with its maximal leading and/or trailing run of whitespace removed, and are idempotent; chomp removes exactly the last character; none of them reads or writes outside the string and its terminator.", "quantifier": "all NUL-terminated byte strings", "why_tests_cant": "unbounded inputs", "anchors": ["src/string/left_trim.c", "src/string/right_trim.c", "src/string/trim.c", "src/string/chomp.c", "src/string/is_whitespace.c"]}
{"id": "C14", "title": "words and split cut a string into exactly its pieces", "statement": "Iterating words (or multisplit with a predicate) yields exactly the maximal runs of non-separator characters in order and then end-of-input; split on a character yields the two halves around its first occurrence, whose rejoining gives the input back.", "quantifier": "all NUL-terminated strings and all separators", "why_tests_cant": "unbounded inputs; off-by-one at the end of string and separators with the high bit set", "anchors": ["src/string/words.c", "src/string/split.c", "src/string/multisplit.c"]}
{"id": "C15", "title": "Prefix and suffix tests agree with the mathematical definition", "statement": "starts_with(s,t) is true exactly when t is a prefix of s (a NULL t is a prefix of everything, a NULL s has only the NULL prefix); ends_with(s,c) is true exactly when s is non-empty and its last character is c.", "quantifier": "all NUL-terminated strings and all ASCII characters 1..127 (the documented contract)", "why_tests_cant": "unbounded inputs and signed char promotion", "anchors": ["src/string/starts_with.c", "src/string/ends_with.c"]}
{"id": "C16", "title": "strcat and strdup build exactly the concatenation", "statement": "strdup and vstrcat on success return a fresh string that is exactly the concatenation of all inputs with one NUL terminator, never write outside the allocation, and on allocation failure return out of memory and leave nothing allocated.", "quantifier": "any number of strings of any length, both allocation outcomes", "why_tests_cant": "unbounded inputs and allocation failure", "anchors": ["src/string/vstrcat.c", "src/string/strdup.c"]}
{"id": "C17", "title": "UUID text round trip", "statement": "Formatting any 16-byte uuid with rcpr_uuid_to_string and parsing it back with rcpr_uuid_parse_string succeeds and gives the same 16 bytes.", "quantifier": "all 2^128 uuids", "why_tests_cant": "2^128 inputs", "anchors": ["src/uuid/rcpr_uuid_to_string.c", "src/uuid/rcpr_uuid_parse_string.c", "src/uuid/rcpr_uuid_parse_raw_string.c"]}
{"id": "C18", "title": "UUID parser accepts exactly the uuid grammar", "statement": "rcpr_uuid_parse_string succeeds exactly on strings of 36 characters consisting of 8-4-4-4-12 hexadecimal digits of either case joined by dashes and terminated by NUL; it never reads past the terminator.", "quantifier": "all NUL-terminated strings", "why_tests_cant": "unbounded inputs; grammar completeness needs both directions", "anchors": ["src/uuid/rcpr_uuid_parse_string.c", "src/uuid/rcpr_uuid_parse_raw_string.c"]}
{"id": "C19", "title": "Boxed values round trip over the wire", "statement": "For every boxed type, what psock_write_boxed_T sends is decoded by psock_read_boxed_T to the same value and consumes exactly the bytes that were written, leaving following bytes untouched, over any transport that delivers the bytes asked for (a request for no bytes included) and between hosts of either byte order. Over a transport that delivers less or fails, the read fails without a value; it never yields a different value.", "quantifier": "every value of every boxed type (8/16/32/64-bit signed and unsigned, bool, strings without NUL, data shorter than 2^32 bytes), any following bytes", "why_tests_cant": "2^64 values and unbounded strings", "anchors": ["src/psock/psock_write_boxed_int64.c", "src/psock/psock_read_boxed_int64.c", "src/psock/psock_write_boxed_string.c", "src/psock/psock_read_boxed_string.c", "src/psock/psock_write_boxed_data.c", "src/psock/psock_read_boxed_data.c", "src/psock/psock_write_boxed_bool.c"]}
{"id": "C20", "title": "A stream of boxed values decodes to the same sequence", "statement": "Writing any sequence of boxed values to a buffer psock and reading the resulting bytes back with the matching read calls yields the same sequence.", "quantifier": "every finite sequence of boxed values of any mix of types", "why_tests_cant": "unbounded sequences; an empty string or empty data item at the very end of the stream is a special case", "anchors": ["src/psock/psock_from_buffer_read.c", "src/psock/psock_from_buffer_write.c", "src/psock/psock_read_boxed_data.c", "include/rcpr/psock.h"]}
{"id": "C21", "title": "Reading a boxed value of the wrong type is rejected", "statement": "If the next item on the wire was written as a different boxed type, every psock_read_boxed_T returns ERROR_PSOCK_READ_BOXED_INVALID_TYPE and never a value.", "quantifier": "all ordered pairs of distinct boxed types and all values", "why_tests_cant": "all pairs times all values", "anchors": ["src/psock/psock_read_boxed_int64.c", "include/rcpr/psock.h:psock_boxed_type"]}
{"id": "C22", "title": "A buffer psock's output is the concatenation of all writes", "statement": "After any sequence of successful psock_write calls on a buffer psock, psock_from_buffer_get_output_buffer returns exactly the concatenation of the written data.", "quantifier": "every finite sequence of writes of any sizes", "why_tests_cant": "chunk boundaries at 4096 bytes interact with the sequence of sizes", "anchors": ["src/psock/psock_from_buffer_write.c", "src/psock/psock_from_buffer_get_output_buffer.c"]}
{"id": "C23", "title": "Raw data transfer is independent of how the transport chunks it", "statement": "psock_read_raw_data succeeds with exactly the next n bytes however the underlying reads split them; psock_write_raw_data delivers every byte exactly once in order however the underlying writes split them.", "quantifier": "all byte sequences, all chunkings by the transport", "why_tests_cant": "chunkings are exponential in the length", "anchors": ["src/psock/psock_read_raw_data.c", "src/psock/psock_write_raw_data.c"]}
{"id": "C24", "title": "The buffered reader is transparent", "statement": "Reading through a psock_br returns, over any sequence of read sizes and any chunking of the underlying socket, exactly the bytes of the underlying stream in order, with none lost, duplicated or reordered.", "quantifier": "all streams, all chunkings, all sequences of read requests and buffer sizes", "why_tests_cant": "buffer refill and compaction interact with every combination of request size and chunk size", "anchors": ["src/psock/psock_br_psock_read.c", "src/psock/psock_br_fill.c"]}
{"id": "C25", "title": "Buffered line reading returns lines without overflowing", "statement": "psock_br_read_line never writes outside the caller's buffer, always NUL-terminates on success or truncation, and returns exactly the next line of the stream; the outcome depends only on the stream contents and not on how the socket chunks them.", "quantifier": "all streams, chunkings and buffer sizes", "why_tests_cant": "chunk-boundary dependence only shows up at particular combinations", "anchors": ["src/psock/psock_br_read_line.c"]}
{"id": "C26", "title": "Async-wrapped reads and writes survive any would-block schedule", "statement": "A blocking read through an async-wrapped psock returns exactly the requested bytes in order, and a blocking write sends all bytes exactly once, for every schedule of would-block results and partial transfers from the descriptor.", "quantifier": "all interleavings of would-block and partial transfers", "why_tests_cant": "schedules are unbounded", "anchors": ["src/psock/psock_wrap_async_read.c", "src/psock/psock_wrap_async_write.c"]}
{"id": "C27", "title": "Scheduler dispatches each callback code to its own discipline", "statement": "After any sequence of successful discipline additions, yielding to the k-th callback of a discipline invokes exactly that callback with that discipline's context, and codes out of range are rejected.", "quantifier": "every sequence of disciplines with any number of callbacks, every code", "why_tests_cant": "unbounded sequences of registrations", "anchors": ["src/fiber/common/fiber_scheduler_discipline_add.c", "src/fiber/common/fiber_scheduler_create_with_disciplines.c"]}
{"id": "C28", "title": "Yielding past the end of a discipline is rejected", "statement": "fiber_discipline_yield returns an error for every yield offset that is not smaller than the discipline's number of callbacks, and never reads outside the code vector.", "quantifier": "all offsets, all vector sizes", "why_tests_cant": "an out-of-bounds read of one element is usually silent", "anchors": ["src/fiber/common/fiber_discipline_yield.c"]}
{"id": "C29", "title": "Run queue is served first-come first-served", "statement": "Fibers that yield with the plain run operation are resumed in round-robin order: a queued fiber is resumed after at most as many resumptions as there are fibers ahead of it, for every sequence of plain yields.", "quantifier": "every number of fibers and every sequence of plain yields", "why_tests_cant": "liveness over unbounded executions", "anchors": ["src/fiber/common/fiber_scheduler_create_with_disciplines.c:fiber_scheduler_disciplined_callback", "src/fiber/common/fiber_scheduler_run.c"]}
{"id": "C30", "title": "A fiber is resumed once per wakeup, with the event meant for it", "statement": "A fiber that is waiting is in the run queue at most once, and when resumed sees the event recorded by the operation that woke it.", "quantifier": "all interleavings of sends, receives, notifications and quiesce/terminate requests", "why_tests_cant": "needs all interleavings of management requests with queued wakeups", "anchors": ["src/fiber/common/fiber_scheduler_create_with_disciplines.c", "src/message/message_discipline_message_send_callback_handler.c"]}
{"id": "C31", "title": "Adding a discipline is all or nothing", "statement": "If fiber_scheduler_discipline_add fails, the scheduler is unchanged: the discipline is not registered and the caller still owns it.", "quantifier": "every failure point of its allocations", "why_tests_cant": "allocation failure at each step", "anchors": ["src/fiber/common/fiber_scheduler_discipline_add.c"]}
{"id": "C32", "title": "Messages are delivered exactly once in order", "statement": "For every history of sends and receives on a mailbox, the receivers obtain exactly the sent messages in the order sent, none lost and none duplicated, and a blocked receiver is woken by the next send.", "quantifier": "all interleavings of any number of senders and one receiver per mailbox", "why_tests_cant": "unbounded interleavings", "anchors": ["src/message/message_discipline_message_send_callback_handler.c", "src/message/message_discipline_message_receive_callback_handler.c"]}
{"id": "C33", "title": "Mailbox addresses are never reused", "statement": "Every successful mailbox_create returns an address different from every address returned before, including those of closed mailboxes; sending to a closed or never-created address fails.", "quantifier": "every history of create and close", "why_tests_cant": "unbounded histories", "anchors": ["src/message/message_discipline_mailbox_create_callback_handler.c", "src/message/message_discipline_mailbox_close_callback_handler.c"]}
{"id": "C34", "title": "Closing a mailbox wakes its blocked receiver", "statement": "When a mailbox is closed while a fiber is blocked receiving on it, that fiber is made runnable with a failure result.", "quantifier": "every state with a blocked receiver", "why_tests_cant": "a hang is not observable by a terminating test", "anchors": ["src/message/message_discipline_mailbox_close_callback_handler.c"]}
{"id": "C35", "title": "Creation functions report failure", "statement": "When an allocation inside mailbox_create, conditional_create, psock_br_create_from_psock or fiber scheduler creation fails, the function returns a failure status; success is returned only with the output handle set.", "quantifier": "every failure point", "why_tests_cant": "allocation failure at each step is not reachable with malloc", "anchors": ["src/message/message_discipline_mailbox_create_callback_handler.c", "src/condition/fiber/condition_discipline_create_callback_handler.c", "src/psock/psock_br_create_from_psock.c", "src/fiber/common/fiber_scheduler_create_with_disciplines.c"]}
{"id": "C36", "title": "Condition notify wakes waiters in arrival order, each once", "statement": "notify_one wakes the longest-waiting fiber only; notify_all wakes every waiting fiber exactly once in arrival order; no fiber that did not wait is woken.", "quantifier": "every history of waits and notifies", "why_tests_cant": "unbounded interleavings", "anchors": ["src/condition/fiber/condition_discipline_notify_one_callback_handler.c", "src/condition/fiber/condition_discipline_notify_all_callback_handler.c", "src/condition/fiber/condition_discipline_wait_callback_handler.c"]}
{"id": "C37", "title": "Closing a condition wakes its waiters", "statement": "When a condition is closed while fibers wait on it, each waiting fiber is made runnable with a failure result.", "quantifier": "every state with waiters", "why_tests_cant": "a hang is not observable by a terminating test", "anchors": ["src/condition/fiber/condition_discipline_close_callback_handler.c"]}
{"id": "C38", "title": "Auto-reset trigger fires once per signal and never loses a signal", "statement": "A registered callback is called exactly once after a signal, the trigger then returns to its initial state, and a signal before registration is remembered; signals raised or callbacks registered from within the callback are not lost.", "quantifier": "every history of register/signal including re-entrant ones", "why_tests_cant": "re-entrancy and ordering", "anchors": ["src/auto_reset_trigger/auto_reset_trigger_step.c", "src/auto_reset_trigger/auto_reset_trigger_register.c", "src/auto_reset_trigger/auto_reset_trigger_signal.c"]}
{"id": "C39", "title": "Descriptor rearrangement leaves the requested table", "statement": "After a successful socket_utility_setfds each target descriptor refers to the file its source referred to before the call, and source descriptors not among the targets are closed.", "quantifier": "all descriptor tables and all argument lists", "why_tests_cant": "aliasing between sources and targets has many cases", "anchors": ["src/socket_utilities/vsocket_utility_setfds.c", "src/socket_utilities/vsocket_utility_move_descriptors.c"]}
{"id": "C40", "title": "A fiber blocked on a descriptor is woken by every readiness event", "statement": "When poll/epoll reports any event (including hang-up and error) for a descriptor a fiber is blocked on, the fiber is made runnable; all other blocked fibers stay registered in order.", "quantifier": "all sets of registered descriptors and all event reports", "why_tests_cant": "event combinations from the kernel cannot be enumerated in a test", "anchors": ["src/psock/platform/epoll/psock_idle_fiber_entry.c", "src/psock/platform/poll/psock_idle_fiber_entry.c"]}
{"id": "C41", "title": "Byte order conversions are mutually inverse and big-endian", "statement": "ntohN(htonN(x)) = x for 16, 32 and 64 bits, and the bytes of htonN(x) in memory are the big-endian representation of x, on both byte orders.", "quantifier": "all 2^64 values", "why_tests_cant": "2^64 values", "anchors": ["src/socket_utilities/socket_utility_hton64.c", "src/socket_utilities/socket_utility_ntoh64.c", "include/rcpr/byteswap.h"]}
{"id": "C42", "title": "Big integers have enough words and clone exactly", "statement": "bigint_create_zero allocates the least number of 64-bit words holding the requested number of bits rounded to bytes and all are zero; bigint_clone yields an equal, independent integer.", "quantifier": "all sizes, all contents", "why_tests_cant": "all sizes", "anchors": ["src/bigint/bigint_create_zero.c", "src/bigint/bigint_clone.c"]}
{"id": "C43", "title": "Status codes are distinct", "statement": "No two named status codes across all components share a numeric value, each non-success code has the component and code bits it was declared with, and none equals STATUS_SUCCESS.", "quantifier": "all pairs of codes", "why_tests_cant": "collisions between components are not exercised by any unit test", "anchors": ["include/rcpr/status.h", "include/rcpr/status/psock.h", "include/rcpr/component.h"]}
{"id": "C44", "title": "Node create and insert leak nothing when allocation fails", "statement": "When an allocation fails inside any slist, list, queue or rbtree insertion, the call returns a failure, the container is unchanged, nothing newly allocated remains allocated and the caller still owns the resource.", "quantifier": "every container state and every failing allocation", "why_tests_cant": "allocation failure is not reachable with malloc", "anchors": ["src/slist/slist_node_create.c", "src/slist/slist_insert_head.c", "src/list/list_node_create.c", "src/rbtree/rbtree_insert.c", "src/rbtree/rbtree_node_create.c"]}
{"id": "C45", "title": "A clear that fails part-way leaves a usable list", "statement": "When slist_clear or list_clear returns an error because one child refuses release, the list still represents the remaining elements: later appends are visible from the head and the count matches.", "quantifier": "all lists, all positions of the failing child, all subsequent calls", "why_tests_cant": "a failing release in the middle of a clear is a rare fault; positions and follow-up calls are unbounded", "anchors": ["src/slist/slist_clear.c", "src/list/list_clear.c"]}
{"id": "C46", "title": "A failed read of a string or data keeps no buffer", "statement": "psock_read_raw_data, psock_read_boxed_string and psock_read_boxed_data leave a buffer allocated exactly when they hand it to the caller, and hand one over exactly when they return success.", "quantifier": "all transports including ones that misbehave, all sizes, all allocator answers", "why_tests_cant": "requires short reads and failures at every position", "anchors": ["src/psock/psock_read_raw_data.c", "src/psock/psock_read_boxed_string.c", "src/psock/psock_read_boxed_data.c"]}
{"id": "C47", "title": "A failed write to a buffer psock does not disturb later output", "statement": "After a write to a buffer psock has failed, later writes that report success appear intact in the output buffer.", "quantifier": "all write sequences with allocation failures at any position", "why_tests_cant": "needs an allocation failure in the middle of a write", "anchors": ["src/psock/psock_from_buffer_write.c", "src/psock/psock_from_buffer_get_output_buffer.c"]}
{"id": "C48", "title": "A failed async write reports how much was sent", "statement": "When a write on an async psock fails, the size it reports is the number of bytes that were sent.", "quantifier": "all data, all schedules, all failures", "why_tests_cant": "failures at every byte position", "anchors": ["src/psock/psock_wrap_async_write.c"]}
{"id": "C49", "title": "Failure to create a buffered reader is reported", "statement": "psock_br_create_from_psock returns success exactly when it produces a reader.", "quantifier": "every combination of allocator answers", "why_tests_cant": "allocation failure is not reachable with malloc", "anchors": ["src/psock/psock_br_create_from_psock.c"]}
{"id": "C50", "title": "Boxed values survive any async schedule end to end", "statement": "A sequence of boxed values written through an async psock and read through another async psock that delivers the bytes written is unchanged, whatever partial transfers and waits happen on either side and whatever the byte order of the hosts.", "quantifier": "all sequences of values, all finite schedules on both sides", "why_tests_cant": "two independent unbounded schedules and unbounded data", "anchors": ["src/psock/psock_wrap_async_read.c", "src/psock/psock_wrap_async_write.c", "src/psock/psock_write_boxed_string.c", "src/psock/psock_read_boxed_string.c"]}
{"id": "C51", "title": "close_other_fds leaves nothing open above the given descriptor", "statement": "After socket_utility_close_other_fds(fd) no descriptor greater than fd is open, and the descriptors up to fd are untouched; close_standard_fds closes exactly 0, 1 and 2.", "quantifier": "all descriptor tables", "why_tests_cant": "the largest open descriptor depends on the process limits", "anchors": ["src/socket_utilities/socket_utility_close_other_fds.c", "src/socket_utilities/socket_utility_close_standard_fds.c"]}
{"id": "C52", "title": "A fiber that waits on a socket is never forgotten", "statement": "A fiber whose psock_read_block or psock_write_block was accepted stays registered until it is made runnable; a fiber that cannot be registered is refused with ERROR_PSOCK_DOUBLE_BLOCK_UNSUPPORTED.", "quantifier": "all interleavings of fibers, resumptions by other disciplines and passes of the idle fiber", "why_tests_cant": "the loss needs a particular order of wake-ups of two fibers", "anchors": ["src/psock/psock_read_block.c", "src/psock/psock_write_block.c", "src/psock/platform/epoll/psock_idle_fiber_entry.c", "src/psock/platform/poll/psock_idle_fiber_entry.c"]}
{"id": "C53", "title": "A management request is never mistaken for the result of a call", "statement": "When a quiesce or terminate request reaches a fiber that is inside a mailbox, condition or management call, that call returns a failure; it never returns success or a message.", "quantifier": "every call and every point at which a request can reach it", "why_tests_cant": "event codes of different disciplines overlap only in some orders of calls", "anchors": ["src/message/message_send.c", "src/message/mailbox_close.c", "src/condition/conditional_close.c", "src/fiber/common/disciplined_fiber_scheduler_send_terminate_request_to_fiber.c"]}
{"id": "C54", "title": "A runnable fiber is not overtaken without bound", "statement": "A fiber in the run queue runs again after a number of switches that depends only on its place in the queue, whatever calls the other fibers make.", "quantifier": "all executions of any length", "why_tests_cant": "starvation is a property of infinite executions", "anchors": ["src/fiber/common/disciplined_fiber_scheduler_set_next_fiber_to_run.c", "src/fiber/common/fiber_scheduler_create_with_disciplines.c:fiber_scheduler_disciplined_callback"]}
{"id": "C55", "title": "Releasing a scheduler returns all its memory", "statement": "After a fiber scheduler is created and released, and after a creation that fails, nothing allocated for it remains allocated, and nothing is reclaimed twice.", "quantifier": "every failure point of the allocations", "why_tests_cant": "a leak has no functional effect, and failure at each step is not reachable with malloc", "anchors": ["src/fiber/common/fiber_scheduler_create_with_disciplines.c", "src/fiber/common/fiber_scheduler_resource_release.c"]}
{"id": "C56", "title": "A context switch is transparent to the fiber that makes it", "statement": "A fiber that calls fiber_switch and is later switched back to continues right behind the call with its stack pointer, its callee-saved registers and its floating point control words unchanged, whatever the other fibers did in between, and finds in its structure the event with which it was resumed.", "quantifier": "all machine states, any number of fibers, any code run in between that leaves the saved frames alone", "why_tests_cant": "assembly code; a register that is not restored only matters if the compiler happens to keep a value in it", "anchors": ["src/fiber/platform/sysv/x86_64/fiber_switch.s", "src/fiber/platform/sysv/x86_64/fiber_struct.inc", "src/fiber/common/fiber_internal.h", "src/fiber/common/fiber_scheduler_yield.c"]}
{"id": "C57", "title": "A new fiber starts in its entry function on its own stack", "statement": "The first switch to a fiber made by fiber_make enters the entry function with the scheduler and the fiber as arguments and with the stack alignment of the ABI, on the stack given to the fiber; fiber_make itself returns normally and touches only the memory of the new fiber.", "quantifier": "all machine states, stack addresses and sizes, any code run between creation and first switch", "why_tests_cant": "misalignment only matters to some instructions, and overruns only with some memory layouts", "anchors": ["src/fiber/platform/sysv/x86_64/fiber_make.s", "src/fiber/common/fiber_create.c"]}
{"id": "C58", "title": "A fiber whose entry function returns ends the process with a failure", "statement": "If the entry function of a fiber returns, the process exits with a non-zero exit code.", "quantifier": "all machine states", "why_tests_cant": "the entry function returns only when the scheduler fails to stop the fiber", "anchors": ["src/fiber/platform/sysv/x86_64/fiber_make.s:finish"]}
{"id": "C59", "title": "A quiesce or terminate request reaches exactly the fibers it is meant for", "statement": "A request to one fiber resumes that fiber with the request if it has been entered and has not ended, and is refused with ERROR_FIBER_INVALID_STATE and without any effect if not; a request to all reaches every running fiber once; the requesting fiber gets a success result; no other fiber is affected.", "quantifier": "all histories of calls by any number of fibers", "why_tests_cant": "depends on the life of every fiber up to the request", "anchors": ["src/fiber/common/fiber_scheduler_create_with_disciplines.c", "src/fiber/common/disciplined_fiber_scheduler_send_quiesce_request_to_all.c", "include/rcpr/fiber.h"]}
{"id": "C60", "title": "A constructor either hands over an object or leaves nothing behind", "statement": "Each constructor of threads, mutexes, conditions, stacks, fibers, lists, trees, queues, big integers, messages, mailboxes, barriers, discipline contexts and psocks returns success exactly when it sets its result, succeeds when nothing it asks for is refused, touches nothing that existed before, and, when it fails at any step, has given back everything it acquired and still leaves with the caller what the caller wanted to hand over.", "quantifier": "every combination of failures of the allocator and the operating system, all prior states", "why_tests_cant": "failures at each step, alone and combined, cannot be provoked by a test", "anchors": ["src/platform/pthread/thread/thread_create.c", "src/fiber/common/fiber_create.c", "src/stack/stack_create.c", "src/queue/queue_create.c", "src/bigint/bigint_create_zero.c", "src/message/mailbox_create.c", "src/psock/psock_create_from_buffer.c", "src/psock/psock_create_from_hostname_and_port.c", "src/psock/psock_create_from_listen_address.c"]}
{"id": "C61", "title": "Releasing an object gives back everything it owns and nothing else", "statement": "The release method of each object built by the constructors of C60 is defined whatever happened in between to other objects, touches nothing but what the constructor acquired or took over, returns success if nothing is refused, and if it returns success everything is given back. The release of a thread joins it and returns its exit code.", "quantifier": "all states in which the object is intact, every combination of failing reclaims", "why_tests_cant": "leaks and double frees in rare combinations", "anchors": ["src/platform/pthread/thread/thread_create.c:thread_release", "src/fiber/common/fiber_create.c", "src/queue/queue_create.c", "src/psock/psock_create_from_buffer.c"]}
{"id": "C62", "title": "A failing constructor sets the caller's variable to NULL", "statement": "When a constructor documented to set its result to NULL on failure fails, the variable is NULL afterwards; in any case it does not point at something that was released.", "quantifier": "all failures", "why_tests_cant": "tests initialise the variable to NULL themselves", "anchors": ["include/rcpr/thread.h", "include/rcpr/queue.h", "include/rcpr/list.h", "include/rcpr/slist.h", "include/rcpr/rbtree.h", "include/rcpr/stack.h", "include/rcpr/fiber.h", "include/rcpr/bigint.h", "include/rcpr/psock.h"]}
{"id": "C63", "title": "Any history of constructors and releases is balanced", "statement": "In any sequence of constructor calls and releases of the objects obtained, in any order and with failures anywhere in the constructors, nothing is given back twice or used after it was given back; whatever is held belongs to an object not yet released; after all releases nothing is held.", "quantifier": "all histories of any length over all modelled constructors, all failures of acquisitions", "why_tests_cant": "unbounded histories with failures anywhere", "anchors": ["include/rcpr/resource.h", "src/resource"]}
{"id": "C64", "title": "A release that is refused one part gives back the other parts", "statement": "When one of the steps of a release method fails, the parts whose return would have been accepted are given back all the same, and no part still in use is given back.", "quantifier": "all failures of single steps", "why_tests_cant": "the operating system does not refuse in tests", "anchors": ["src/stack/stack_create.c:stack_release", "src/fiber/common/fiber_create.c", "src/platform/pthread/thread/thread_create.c:thread_release"]}
{"id": "C65", "title": "A scheduler owns each fiber and discipline it is given exactly once", "statement": "Whatever disciplines, fibers and sockets a program adds to a disciplined scheduler, removes, or fails to add, releasing the fibers the program still has and then the scheduler gives back everything exactly once: nothing is used after it was given back and nothing is left.", "quantifier": "all histories of any length, all failures of acquisitions", "why_tests_cant": "double release after a failed call, and leaks, do not show in tests", "anchors": ["src/fiber/common/fiber_scheduler_create_with_disciplines.c:fiber_scheduler_disciplined_context_resource_release", "src/fiber/common/fiber_scheduler_discipline_add.c", "src/fiber/common/disciplined_fiber_scheduler_remove_fiber.c", "src/fiber/common/disciplined_fiber_scheduler_set_idle_fiber.c", "src/psock/psock_create_wrap_async.c"]}
{"id": "C66", "title": "get_or_create answers a valid discipline, and always the same one", "statement": "A discipline answered by message_discipline_get_or_create or condition_discipline_get_or_create is valid until the scheduler is released, and every later call on that scheduler succeeds with the same discipline and changes nothing.", "quantifier": "all histories before and between the calls, all failures of acquisitions", "why_tests_cant": "needs an allocation failure in an earlier call", "anchors": ["src/message/message_discipline_get_or_create.c", "src/condition/fiber/condition_discipline_get_or_create.c", "src/fiber/common/fiber_scheduler_discipline_add.c"]}
{"id": "C67", "title": "A scheduler with async sockets has an idle fiber", "statement": "After a psock_create_wrap_async that returned success the scheduler has an idle fiber, so that waiting fibers can be woken.", "quantifier": "all histories, all failures of acquisitions", "why_tests_cant": "needs a failure of the creation of the idle fiber in an earlier call", "anchors": ["src/psock/psock_create_wrap_async.c", "src/fiber/common/disciplined_fiber_scheduler_set_idle_fiber.c"]}
{"id": "C68", "title": "Descriptors passed between processes arrive once, in order, and are all handed to the caller", "statement": "Each message that arrives at a datagram psock is consumed by exactly one psock_read_raw_descriptor, in order; a successful read gives one descriptor that was not in use and stands for the file sent; a failing one changes no descriptor; no descriptor becomes open that the caller is not told of. The i-th successful read gives the file of the i-th successful write. The same holds for connections and psock_accept. Over a socket that is no datagram socket no descriptor is passed: both calls say that the type is not supported and nothing happens.", "quantifier": "all histories of calls, closes and arrivals, all kernel answers, all limits on descriptors, plain and async psocks", "why_tests_cant": "the peer chooses what a message carries; limits and EAGAIN occur at arbitrary points", "anchors": ["src/psock/psock_read_raw_descriptor.c", "src/psock/psock_write_raw_descriptor.c", "src/psock/psock_from_descriptor_recvmsg.c", "src/psock/psock_from_descriptor_accept.c"]}
{"id": "C69", "title": "Async psocks hide would-block from accept and descriptor passing", "statement": "psock_accept, psock_read_raw_descriptor and psock_write_raw_descriptor on an async psock never report a would-block status, do their work exactly once however often they have to wait, end once what they wait for is there, and otherwise answer what the wrapped psock answers.", "quantifier": "all finite schedules of answers and waits, all histories", "why_tests_cant": "schedules of EAGAIN are unbounded", "anchors": ["src/psock/psock_wrap_async_accept.c", "src/psock/psock_wrap_async_recvmsg.c", "src/psock/psock_wrap_async_sendmsg.c"]}
{"id": "C70", "title": "Wrapping psocks and user methods pass every call through", "statement": "A call on a buffered reader, an async psock or a psock made from user methods has the effect of the call on the wrapped psock or of the user's method; a method that is missing gives ERROR_PSOCK_METHOD_UNDEFINED and no effect.", "quantifier": "all psocks below, all nestings, all calls", "why_tests_cant": "tests wrap one kind of psock and call few methods", "anchors": ["src/psock/psock_br_create_from_psock.c", "src/psock/psock_br_psock_accept.c", "src/psock/psock_create_from_user_methods.c", "src/psock/psock_create_wrap_async.c"]}
{"id": "C71", "title": "With enforcement on, no method is called through a pointer that is not a table of the vtable section", "statement": "When runtime checking is enabled, a method is called through an object only if the vtable pointer in the object points to a table in the vtable section, and the method called is the one of that table that the call names; any other pointer is answered with ERROR_GENERAL_BAD_VTABLE (or an assertion failure) and nothing is read or called through it. Objects with genuine tables are never refused, in any build.", "quantifier": "all memory contents, all pointers, all entry points of resources, allocators and psocks, all build options", "why_tests_cant": "tests use objects made by constructors; the claim is about corrupted ones", "anchors": ["include/rcpr/vtable.h:RCPR_VTABLE_CHECK", "src/resource/resource_vtable_read.c", "src/resource/resource_release.c", "src/allocator/allocator_allocate.c", "src/psock/psock_create_from_user_methods.c", "include/rcpr/psock.h:psock_vtable"]}
{"id": "C72", "title": "The malloc allocator gives each region bytes of its own", "statement": "Whatever regions a client allocates, resizes, writes and reclaims in the documented way: nothing undefined happens, regions do not overlap, each byte read is the last one written, a resized region keeps its contents up to the smaller size, a failed resize leaves variable and region as they were and to be reclaimed, a failed allocation sets the variable to NULL, and when all regions are reclaimed and the allocator is released nothing is left.", "quantifier": "all adaptive clients, all histories, all answers of the C library that the standard allows", "why_tests_cant": "failures of the C library and placement of blocks are not under the control of a test", "anchors": ["src/allocator/malloc_allocator_create.c", "src/allocator/allocator_reallocate.c", "include/rcpr/allocator.h"]}
{"id": "C73", "title": "Releasing a thread waits for it and answers what its function returned", "statement": "When resource_release on a thread returns, the thread function has returned and the thread has ended; the value is what the function returned (or the allocator's failure), and the structure has been reclaimed. Until a thread is released its structure is there for thread_start to use: no thread, wrapper or release ever touches a thread structure that has been reclaimed.", "quantifier": "all interleavings of any number of threads creating and releasing threads", "why_tests_cant": "interleavings are unbounded and not under the control of a test; a store into freed memory is usually harmless", "anchors": ["src/platform/pthread/thread/thread_create.c:thread_start", "src/platform/pthread/thread/thread_create.c:thread_release", "include/rcpr/thread.h"]}
{"id": "C74", "title": "Mutexes and conditions keep data consistent in every interleaving", "statement": "If every thread, looked at alone, uses the data of a mutex only between a successful thread_mutex_lock_acquire and the release of the lock, restores the invariant of the data before it releases the lock or waits, and uses one mutex per condition, then in every interleaving: nothing undefined happens, at most one thread has the lock, the invariant holds whenever nobody has it, and a thread that returns from thread_cond_wait has the lock and finds the invariant.", "quantifier": "all programs with a proof outline, any number of threads, mutexes and conditions, all interleavings, failures and spurious wake-ups", "why_tests_cant": "interleavings are unbounded and not under the control of a test", "anchors": ["src/platform/pthread/thread/thread_mutex_lock_acquire.c", "src/platform/pthread/thread/thread_mutex_create.c:thread_mutex_lock_release", "src/platform/pthread/thread/thread_cond_wait.c", "include/rcpr/thread.h"]}
{"id": "C75", "title": "No wake-up is lost", "statement": "If threads wait only when the data do not warrant a wake-up, and a thread that makes wake-ups due gives as many successful thread_cond_signal_one (or one thread_cond_signal_all) before it gives up the lock, then whenever the lock is free and a thread still sleeps, as many threads have been woken as the data warrant, and one of them can return from thread_cond_wait at once.", "quantifier": "all programs that keep to the discipline, all interleavings, failures and spurious wake-ups", "why_tests_cant": "a lost wake-up needs a particular interleaving and shows as a hang", "anchors": ["src/platform/pthread/thread/thread_cond_wait.c", "src/platform/pthread/thread/thread_cond_signal_one.c", "src/platform/pthread/thread/thread_cond_signal_all.c"]}
{"id": "C76", "title": "A failed acquire sets the lock to NULL", "statement": "When thread_mutex_lock_acquire fails, the caller's lock variable is NULL, as documented, so that a clean-up which releases a lock that is not NULL never unlocks a mutex the thread does not own.", "quantifier": "all failures, all prior values of the variable", "why_tests_cant": "pthread_mutex_lock does not fail in tests", "anchors": ["src/platform/pthread/thread/thread_mutex_lock_acquire.c", "include/rcpr/thread.h"]}
{"id": "C77", "title": "A mailbox or condition that is open can be found, and one that is closed cannot", "statement": "Whatever mailboxes and conditions a program opens and closes: an address or handle that was returned and not closed is found by sends, receives, waits and notifications, a closed one is refused, and no call uses a structure that was released. The trees in which they are kept do not show.", "quantifier": "all histories of calls, any number of mailboxes, conditions and fibers, all failures of allocations", "why_tests_cant": "the loss depends on the order in which seven or more are opened and closed", "anchors": ["src/message/message_discipline_message_send_callback_handler.c", "src/message/message_discipline_mailbox_close_callback_handler.c", "src/condition/fiber/condition_discipline_notify_one_callback_handler.c", "src/rbtree/rbtree_delete.c"]}
{"id": "C78", "title": "A wait on a socket succeeds only if the socket became ready", "statement": "psock_read_block and psock_write_block return STATUS_SUCCESS to a fiber only if epoll_wait reported this socket ready for this direction after the fiber made the call. Requests, other fibers and other sockets never make a wait succeed, and no other yielding call is ever resumed with an event of a socket.", "quantifier": "all histories of calls by any number of fibers, all sets of sockets, requests to any fiber at any time, all reports of the kernel and failures of allocations and epoll_ctl", "why_tests_cant": "needs every order of wake-ups, requests and further waits", "anchors": ["src/psock/psock_read_block.c", "src/psock/psock_write_block.c", "src/psock/platform/epoll/psock_idle_fiber_entry.c", "src/fiber/common/fiber_scheduler_create_with_disciplines.c"]}
{"id": "C79", "title": "A fiber that waits on a socket is told of every quiesce or terminate request once", "statement": "Every quiesce or terminate request to a fiber that waits on a socket is given to the handler for unexpected events of that fiber, exactly once and before the scheduler goes idle; the handler of no other fiber is called.", "quantifier": "all histories of requests, waits and wake-ups of any number of fibers and sockets, all answers of handlers", "why_tests_cant": "the double delivery needs a request between a wake-up and the run of the fiber", "anchors": ["src/psock/psock_read_block.c", "src/psock/psock_write_block.c", "src/fiber/common/fiber_unexpected_event.c", "src/fiber/common/fiber_scheduler_create_with_disciplines.c", "include/rcpr/fiber.h"]}
{"id": "C80", "title": "A message has one owner at a time", "statement": "If fibers send only messages they own, then each message is owned by one fiber, or is in one open mailbox once, or has been disposed of: a successful send gives it to the mailbox, a failed send leaves it with the sender and in no mailbox, a receive gives it to the receiver alone, and no message is dropped from an open mailbox.", "quantifier": "all histories of sends, receives, creations and closes by any number of fibers, with messages created, released and passed on in between", "why_tests_cant": "two owners mean a double release much later, and the interleavings are unbounded", "anchors": ["src/message/message_send.c", "src/message/message_receive.c", "src/message/message_discipline_message_send_callback_handler.c", "src/message/message_discipline_message_receive_callback_handler.c", "include/rcpr/message.h"]}
{"id": "C81", "title": "The scheduler owns a fiber from add until removal, and a request to all reaches every fiber it owns", "statement": "fiber_scheduler_add fails only for want of memory, and then the scheduler does not own the fiber; disciplined_fiber_scheduler_remove_fiber succeeds if and only if the scheduler owns the fiber, which it then does not any more; a quiesce or terminate request to all reaches every living fiber that is owned exactly once, whichever fibers were added and removed before. A fiber that waits for management events is told once of a fiber that is added.", "quantifier": "all histories of adding, removing and any other calls by any number of fibers, with the tree of fibers in memory", "why_tests_cant": "whether the tree of fibers is right depends on the whole history of insertions and deletions and on the addresses of the fibers", "anchors": ["src/fiber/common/fiber_scheduler_create_with_disciplines.c", "src/fiber/common/disciplined_fiber_scheduler_remove_fiber.c", "src/rbtree/rbtree_delete.c", "src/rbtree/rbtree_successor_node.c"]}
{"id": "C82", "title": "No fiber that waits on a socket is forgotten", "statement": "Whenever the scheduler goes idle, the kernel is asked to report what each waiting fiber waits for, and if epoll_wait reports a side of a socket while a fiber waits for it, that fiber runs before the scheduler goes idle again - whatever requests, added fibers, failed waits, failed allocations and waits by other fibers came before or come in between.", "quantifier": "all histories of calls by any number of fibers on any number of sockets, all reports of the kernel, requests to any fiber at any time, all failures of allocations", "why_tests_cant": "a forgotten fiber shows only as a hang, after a particular order of wake-ups and further waits", "anchors": ["src/psock/psock_read_block.c", "src/psock/psock_write_block.c", "src/psock/platform/epoll/psock_idle_fiber_entry.c", "src/psock/platform/epoll/psock_fiber_scheduler_disciplined_read_wait_callback_handler.c", "src/psock/platform/epoll/psock_fiber_scheduler_disciplined_write_wait_callback_handler.c", "src/fiber/common/fiber_scheduler_create_with_disciplines.c"]}
{"id": "C83", "title": "What fibers see over async psocks does not depend on the scheduling", "statement": "Let fibers in one scheduler read from and write to connected async psocks, each direction of a socket used by one fiber. Then no call fails; what is read is what was written, in order; what each fiber sees (the results of its calls) is the same in every execution, as far as executions go, whatever the kernel reports and however it splits reads and writes; executions do not spin; nothing can happen any more only if every fiber ended or waits for a socket that is not ready; and if one execution comes to such an end, all do, with the same results and the same bytes left in the kernel.", "quantifier": "all programs of any number of fibers over any number of sockets that keep to one reader and one writer, all sizes of kernel buffers, all splits of reads and writes, all orders and batches of reports", "why_tests_cant": "the number of schedules and splits is unbounded; a wrong order or a lost wake-up needs a particular one", "anchors": ["src/psock/psock_wrap_async_read.c", "src/psock/psock_wrap_async_write.c", "src/psock/psock_read_block.c", "src/psock/psock_write_block.c", "src/psock/platform/epoll/psock_idle_fiber_entry.c", "src/fiber/common/fiber_scheduler_create_with_disciplines.c"]}
{"id": "C84", "title": "A non-blocking read reports exactly the bytes it took from the stream", "statement": "Over any sequence of calls of psock_read_raw, with any buffers: the bytes reported by the calls (the first *data_size bytes of the buffer after success or would-block), one after the other, followed by what is still to be read, are the stream; no byte is read and not reported, and none is reported that was not read.", "quantifier": "all psocks over descriptors, buffers in memory, buffered readers and async psocks, all ways the stream is split by the transport, all sequences of buffer sizes, all places where it blocks, ends or fails", "why_tests_cant": "the loss needs bytes and the end of the stream (or an error) to arrive within one call; the number of splits is unbounded", "anchors": ["src/psock/psock_read_raw.c", "src/psock/psock_wrap_async_read.c", "src/psock/psock_from_descriptor_read.c", "src/psock/psock_br_psock_read.c", "src/psock/psock_from_buffer_read.c", "include/rcpr/psock.h"]}
{"id": "C85", "title": "The echo server sends back what it receives", "statement": "What the echo server's fiber for a connection has sent is at any time a prefix of what the peer has sent, and equal to what it has taken from the connection whenever it begins a pass of its loop; and when the peer closes its end after sending any bytes in any bursts, all of them have been sent back before the loop is left.", "quantifier": "all connections, all ways reads and writes are split or block, any number of bytes and bursts, any number of passes", "why_tests_cant": "which bytes are lost depends on whether the end of the stream is seen in the same call as the last bytes; the number of splits is unbounded", "anchors": ["examples/echo_server/src/main.c", "src/psock/psock_read_raw.c", "src/psock/psock_write_raw_data.c", "src/psock/psock_wrap_async_read.c", "src/psock/psock_wrap_async_write.c"]}
{"id": "C86", "title": "The echo server closes every accepted connection once and keeps nothing of it", "statement": "Whatever allocations fail, in any order of connections coming and ending: the descriptor of a connection is open, and used by no other connection, until the connection ends or could not be set up, and is then closed exactly once; when a connection has ended or could not be set up, all memory, stacks and scheduler entries for it have been given back; nothing is used after it was given back, and nothing is read through NULL.", "quantifier": "all histories of accepting (also while quiescing) and ending connections, all answers of the allocator and the operating system", "why_tests_cant": "a double close or a leak shows only after an allocation fails at a particular place, and then in another connection", "anchors": ["examples/echo_server/src/main.c", "src/psock/psock_create_wrap_async.c", "src/psock/psock_from_descriptor_release.c", "src/fiber/common/fiber_create.c", "src/fiber/common/fiber_scheduler_create_with_disciplines.c", "src/fiber/common/disciplined_fiber_scheduler_remove_fiber.c"]}
{"id": "C87", "title": "The scheduler, mailboxes and conditions keep their queues in memory soundly", "statement": "Whatever fibers, mailboxes and conditions do over the linked lists that hold the run queue, the messages and the waiting fibers, and whatever the allocator refuses: no call reads or writes a node, list or queue that is not allocated, every loop over a list ends, and the fibers are told exactly what they would be told if the queues were plain lists; a fiber is refused a place in the run queue only if no node could be allocated. Releasing the scheduler after any history succeeds and leaves no node, list or queue allocated.", "quantifier": "all histories of calls by all fibers (adds, yields, stops, requests, mailboxes, conditions), all answers of the allocator, including which block it hands out", "why_tests_cant": "use after free and leaks in lists depend on the order of sends, receives, closes and refusals, which is unbounded", "anchors": ["src/fiber/common/fiber_scheduler_create_with_disciplines.c", "src/message/message_discipline_message_send_callback_handler.c", "src/message/message_discipline_message_receive_callback_handler.c", "src/message/message_discipline_mailbox_close_callback_handler.c", "src/message/mailbox_resource_create.c", "src/condition/fiber/condition_discipline_wait_callback_handler.c", "src/queue/queue_pop.c", "src/slist/slist_pop.c"]}
{"id": "C88", "title": "Every message is received once or released once", "statement": "Closing a mailbox, and releasing the scheduler with mailboxes open, releases exactly the messages that were sent successfully and not received, in order and each once; a message whose send failed is not released by a mailbox; and when the scheduler has been released every message that was sent successfully has been either received by a fiber once or released once.", "quantifier": "all histories of calls by all fibers over queues in memory, all answers of the allocator", "why_tests_cant": "a message that is lost or released twice depends on the interleaving of sends, blocked receives, requests and refused allocations", "anchors": ["src/message/mailbox_resource_create.c", "src/message/message_discipline_mailbox_close_callback_handler.c", "src/message/message_discipline_message_send_callback_handler.c", "src/message/message_discipline_message_receive_callback_handler.c", "src/queue/queue_create.c", "src/slist/slist_create.c"]}
{"id": "C89", "title": "Every frame the mandelbrot example writes is complete", "statement": "The files that the example writes are the first frames in order; each has every line, drawn by one worker, every pixel with the parameters of that frame and at its place; when the program ends normally all frames are written. No line is used before it is drawn, and no two threads use a field of the shared structure in conflict.", "quantifier": "all numbers of jobs, lines, columns and frames, all interleavings of the threads, all failures of the threads library, all spurious wake-ups", "why_tests_cant": "interleavings are unbounded; an incomplete frame or a data race needs a particular one", "anchors": ["examples/mandelbrot/src/main.c", "examples/mandelbrot/src/draw_line.c", "src/platform/pthread/thread/thread_cond_wait.c"]}
{"id": "C90", "title": "The mandelbrot example writes all its frames and ends", "statement": "When no call of the threads library fails, every execution comes to the normal end of the program with all frames written, in a number of steps bounded by the configuration and the number of spurious wake-ups; after a failure the program ends with an error.", "quantifier": "all numbers of jobs, lines, columns and frames, all interleavings", "why_tests_cant": "a hang needs a particular interleaving, and no number of runs shows its absence", "anchors": ["examples/mandelbrot/src/main.c", "examples/mandelbrot/src/draw_line.c", "src/platform/pthread/thread/thread_cond_wait.c", "src/platform/pthread/thread/thread_cond_signal_all.c"]}
{"id": "C91", "title": "Fibers that talk in boxed values over async psocks come to the end of their conversation", "statement": "Let fibers in one scheduler send each other boxed values over connected async psocks with psock_write_boxed_* and psock_read_boxed_*, adding fibers and yielding as they like, so that together they make a conversation in which each value is sent by one fiber and read as the same type by another in its turn (what a fiber does may depend on the values it received). Then no call fails, each fiber reads exactly the values of the conversation in order, no execution comes to a halt before all of it was said, every execution is finite with a bound given by the bytes sent, and nothing is left in the kernel at the end - whatever the sizes of the kernel's buffers, and however the kernel splits reads and writes and reports sockets.", "quantifier": "all conversations of any number of fibers over any number of sockets, all values of all boxed types, all buffer sizes (also smaller than one value), all schedules, splits and reports", "why_tests_cant": "schedules, splits and conversations are unbounded; a deadlock needs a particular combination of buffer sizes and order", "anchors": ["src/psock/psock_write_boxed_string.c", "src/psock/psock_read_boxed_string.c", "src/psock/psock_write_boxed_int64.c", "src/psock/psock_read_boxed_int64.c", "src/psock/psock_wrap_async_read.c", "src/psock/psock_wrap_async_write.c", "src/psock/platform/epoll/psock_idle_fiber_entry.c", "src/fiber/common/fiber_scheduler_create_with_disciplines.c"]}
{"id": "C92", "title": "The echo server shuts down", "statement": "After a signal the echo server stops taking connections, ends the fibers of all connections and closes them, and after the second value of the signal thread the loop in main ends within a number of steps bounded by the length of the run queue, whatever the peers do; then every psock of the server is closed and every fiber but the management fiber released. At no time is anything used after it was released, closed twice, or a fiber resumed after its end; no request fails.", "quantifier": "all executions: any number of connections coming, ending and failing at any time, all orders in which the kernel reports sockets, any time of the signal", "why_tests_cant": "needs the signal at the same moment as data on a connection, and the order in which epoll_wait happens to name them", "anchors": ["examples/echo_server/src/main.c:main", "examples/echo_server/src/main.c:listen_entry", "examples/echo_server/src/main.c:fiber_manager_entry", "examples/echo_server/src/main.c:echo_entry", "src/fiber/common/fiber_scheduler_create_with_disciplines.c:fiber_scheduler_disciplined_management_quiesce_all_callback_handler"]}
{"id": "C93", "title": "A user who moves from node to node sees the tree", "statement": "After any history of calls: going from rbtree_root_node with rbtree_left_node, rbtree_node_value and rbtree_right_node, left before right, one finds the values in order and rbtree_count of them; the parent of a child is the node it came from and the root has none; from every node rbtree_parent_node leads to the root. In a balanced tree each way has at most 2*log2(n+1) nodes.", "quantifier": "all histories, all nodes, any comparison that is an order", "why_tests_cant": "the links of every node after every history cannot be looked at in tests", "anchors": ["src/rbtree/rbtree_root_node.c", "src/rbtree/rbtree_left_node.c", "src/rbtree/rbtree_right_node.c", "src/rbtree/rbtree_parent_node.c", "src/rbtree/rbtree_node_value.c", "src/rbtree/rbtree_nil_node.c", "src/rbtree/rbtree_count.c"]}
{"id": "C94", "title": "The payload of a message is released once", "statement": "Whatever messages a program creates around its resources, looks into, takes the payload out of with message_payload and releases: nothing is released twice or used after it was released, and every resource is owned once, by the program or by one message. The payload is handed over once; after that the message has none, and releasing the message leaves the payload alone.", "quantifier": "all histories of any length, any number of messages and resources, all failures of allocations", "why_tests_cant": "a double release or a leak does not show in tests, and failures of allocations are not under their control", "anchors": ["src/message/message_payload.c", "src/message/message_create.c:message_create", "src/message/message_create.c:message_resource_release"]}
{"id": "C95", "title": "The echo server gives back all it took when main ends", "statement": "Whatever allocations and system calls fail, and however the loop in main ends: when main of the echo server returns, everything that it and the functions it calls allocated or opened - psocks, descriptors, contexts, the signal thread, fibers, the scheduler - has been released exactly once, and nothing was used after its release. signal_thread_create either hands over a thread, its context and both ends of the socket pair, or leaves nothing; listen_entry leaves nothing but what connections took.", "quantifier": "all refusals of allocations and system calls, all histories of connections, all ways the loop ends", "why_tests_cant": "each failure has its own clean-up label, and a leaked descriptor or a double release does not show in a test", "anchors": ["examples/echo_server/src/main.c:main", "examples/echo_server/src/main.c:listen_entry", "examples/echo_server/src/main.c:signal_thread_create", "examples/echo_server/src/main.c:listen_fiber_add", "examples/echo_server/src/main.c:manager_fiber_add"]}
{"id": "C96", "title": "The mandelbrot example gives back all it took when main returns", "statement": "Whatever allocations and calls of the threads library are refused, for any number of jobs, lines and frames: main of the mandelbrot example comes to its end without using anything through NULL or after its release, and when it returns, everything it acquired - allocator, configuration, arrays, mutex, conditions, threads, lines, files - has been given back exactly once, and the error it returns says which step failed.", "quantifier": "all configurations, all refusals of allocations and of calls of the threads library", "why_tests_cant": "each failure has its own clean-up label, and the failures are not under the control of a test", "anchors": ["examples/mandelbrot/src/main.c:main", "examples/mandelbrot/src/config_create.c:config_create", "examples/mandelbrot/src/config_create.c:config_resource_release"]}
{"id": "C97", "title": "As long as the echo server runs it listens", "statement": "From the moment the listen fiber has run until a signal comes, the echo server has its listening psock open and the scheduler has the fiber that accepts from it. If the psock cannot be created (the port is taken, say) or psock_accept fails, the process ends with an error; it does not stay up without accepting connections.", "quantifier": "all histories of connections, reads, writes and failures, all orders in which the sockets become ready", "why_tests_cant": "a server that stays up and serves nobody does not fail, and a test would have to make accept fail and then wait for ever", "anchors": ["examples/echo_server/src/main.c:listen_entry", "examples/echo_server/src/main.c:main", "examples/echo_server/src/main.c:fiber_manager_entry"]}
{"id": "C98", "title": "A boxed write that succeeds has sent a value that can be read back whole", "statement": "For strings and data of every length that size_t can express: if psock_write_boxed_string or psock_write_boxed_data returns success, the stream holds one boxed value with exactly these bytes and nothing after it, so that the matching read returns them all; a value too long for the size field of the format is refused before a byte is sent.", "quantifier": "all byte strings of all lengths, all stream transports, both byte orders", "why_tests_cant": "it shows only with more than four gigabytes of data", "anchors": ["src/psock/psock_write_boxed_data.c:psock_write_boxed_data", "src/psock/psock_write_boxed_string.c:psock_write_boxed_string", "src/psock/psock_read_boxed_data.c:psock_read_boxed_data"]}
{"id": "C99", "title": "The files of the mandelbrot example are images", "statement": "For any configuration, and whatever the arithmetic says about each point: the file of a complete frame is a plain PPM file of the configured width and height, each pixel is blue with as many parts of 255 as the number of rounds the point took to leave, modulo 256 (zero if it took 1000), and different frames go to different files.", "quantifier": "all sizes, all numbers of rounds of all pixels, signed and unsigned char, all frame numbers", "why_tests_cant": "it depends on the platform and on which points a frame shows; a picture that a viewer refuses is still a file", "anchors": ["examples/mandelbrot/src/draw_line.c:draw_line", "examples/mandelbrot/src/main.c:main"]}
{"id": "C100", "title": "Wrapping a psock makes its descriptor nonblocking, and changes nothing else", "statement": "psock_create_wrap_async succeeds if and only if the child is a psock of an open descriptor, the discipline is there or can be made, there is memory and the kernel agrees. Then the new psock has the child, its kind of socket, the fiber and the discipline, and the descriptor is nonblocking with all other flags as they were. If the call fails no flag has changed and no psock was made. After any number of calls a descriptor is nonblocking if and only if it was so before or its psock was wrapped.", "quantifier": "all psocks, all flags of all descriptors, all answers of allocator and kernel, all sequences of calls", "why_tests_cant": "it is about all flags of all descriptors after failures at every place", "anchors": ["src/psock/psock_create_wrap_async.c:psock_create_wrap_async", "src/socket_utilities/socket_utility_set_nonblock.c:socket_utility_set_nonblock"]}
{"id": "C101", "title": "Functions written with the control macros clean up exactly what they have made", "statement": "A function of the pattern of control.h (a chain of TRY_OR_FAIL, then the matching CLEANUP_OR_CASCADE in opposite order, with or without a jump over them on success) ends. If the first k operations succeed and the next fails, it has called these, and cleans up after exactly the k that succeeded, each once, the last first, even if some of the cleaning up fails. If anything is tried, it returns success if and only if nothing failed, and otherwise the last failure.", "quantifier": "all numbers of operations, all statuses of all operations and of all cleanups", "why_tests_cant": "it is about every place of failure in a chain of any length, with failures in cleaning up as well", "anchors": ["include/rcpr/control.h:TRY_OR_FAIL", "include/rcpr/control.h:CLEANUP_OR_CASCADE"]}
{"id": "C102", "title": "Reading and writing through a buffered reader do not disturb each other", "statement": "A program that reads bytes and lines and writes through one buffered reader, in any order, is told by its reads what it is told if it never writes, and by its writes what it is told if it makes them on the psock below and never reads; what is sent is the same. So nothing that is written waits in the reader, and nothing that waits in the reader is lost by writing. Boxed values are written as on the psock below.", "quantifier": "all programs of reads, lines and writes, all readers and writers of the two directions of a socket, all contents of the reader's buffer", "why_tests_cant": "tests try a few orders of reads and writes, and the claim compares every program with two others", "anchors": ["src/psock/psock_br_psock_write.c:psock_br_psock_write", "src/psock/psock_br_psock_read.c:psock_br_psock_read", "src/psock/psock_br_read_line.c:psock_br_read_line"]}
{"id": "C103", "title": "A psock is connected to the host and port, and listens at the address, that was asked for", "statement": "If psock_create_from_hostname_and_port succeeds, the psock is connected to an address of the host at the port that was given, on hosts of either byte order; it succeeds whenever an address of the host accepts the connection and memory and sockets are there. If psock_create_from_listen_address succeeds, the psock listens at the address it was given; it succeeds for every address that can be bound.", "quantifier": "all host names, all ports, all answers of the resolver, all sets of addresses that accept, all addresses to listen at, both byte orders", "why_tests_cant": "tests need a network, and try one host and one small port", "anchors": ["src/psock/psock_create_from_hostname_and_port.c:psock_create_from_hostname_and_port", "src/psock/psock_create_from_listen_address.c:psock_create_from_listen_address"]}
{"id": "C104", "title": "Who owns a message reads in it what was put into it, and an answer reaches the one who asked", "statement": "A program in which fibers send, read, empty, release and pass on only the messages they own (by what the calls told them) never touches the memory of a message that is gone. message_return_address and message_payload return what was given to message_create, whatever mailboxes and fibers the message went through, or no payload once it was taken. Memory is allocated for exactly the messages that have an owner, also after mailboxes were closed. A message sent to the return address of a question resumes the fiber that waits there, which reads in it what the sender put into it.", "quantifier": "all programs, all schedules, any number of fibers, mailboxes and messages, all addresses that the allocator reuses", "why_tests_cant": "messages go through several fibers and their memory is used again; a message that is read after it was released mostly still holds what was in it", "anchors": ["src/message/message_create.c:message_create", "src/message/message_create.c:message_resource_release", "src/message/message_return_address.c:message_return_address", "src/message/message_payload.c:message_payload", "src/message/message_send.c:message_send", "src/message/mailbox_resource_create.c:mailbox_resource_release"]}
