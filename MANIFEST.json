{
 "claims": [
  {
   "property": "C01",
   "status": "proved",
   "theorems": [
    "Rcpr.SList.slist_refines_sequence",
    "Rcpr.SList.slist_observation"
   ],
   "note": ""
  },
  {
   "property": "C02",
   "status": "proved",
   "theorems": [
    "Rcpr.DList.list_refines_sequence",
    "Rcpr.DList.list_observation"
   ],
   "note": ""
  },
  {
   "property": "C03",
   "status": "partial",
   "theorems": [
    "Rcpr.SList.slist_swap_violated",
    "Rcpr.SList.slist_swap_partial",
    "Rcpr.DList.list_swap_violated",
    "Rcpr.DList.list_swap_partial"
   ],
   "note": "The code violates the claim: nodes keep pointing at the list they came from. Negation proved with a reachable witness; partial theorems cover observers directly after the swap."
  },
  {
   "property": "C04",
   "status": "proved",
   "theorems": [
    "Rcpr.SList.slist_ownership",
    "Rcpr.SList.slist_no_leak_no_double_release",
    "Rcpr.DList.list_ownership",
    "Rcpr.DList.list_no_leak_no_double_release"
   ],
   "note": ""
  },
  {
   "property": "C05",
   "status": "partial",
   "theorems": [
    "Rcpr.SList.slist_pop_swallows_failure",
    "Rcpr.SList.slist_next_pop_swallows_failure",
    "Rcpr.SList.slist_pop_reports_failure_violated",
    "Rcpr.SList.slist_pop_reports_failure_partial",
    "Rcpr.DList.list_pop_swallows_failure",
    "Rcpr.DList.list_pop_reports_failure_violated",
    "Rcpr.DList.list_pop_reports_failure_partial"
   ],
   "note": "The code violates the claim: the failing reclaim status is overwritten by the child's release status."
  },
  {
   "property": "C06",
   "status": "proved",
   "theorems": [
    "Rcpr.Queue.queue_refines_deque",
    "Rcpr.Queue.queue_fifo"
   ],
   "note": ""
  },
  {
   "property": "C07",
   "status": "partial",
   "theorems": [
    "Rcpr.RB.rbtree_map_partial",
    "Rcpr.RB.rbtree_map_one_delete_partial",
    "Rcpr.RB.rbtree_map_four_partial",
    "Rcpr.RB.rbtree_map_first_partial",
    "Rcpr.RB.rbtree_map_stack_partial",
    "Rcpr.RB.rbtree_find_insert",
    "Rcpr.RB.rbtree_map_violated",
    "Rcpr.RB.rbtree_map_five_violated",
    "Rcpr.RB.rbtree_map_last_violated"
   ],
   "note": "The code violates the claim: the fix-up after a delete loses elements. Proved for every history in which at each delete every only child is red, for every history with at most one delete between clears, for every history in which the tree holds at most four values (with five it fails, rbtree_map_five_violated), for every history in which only the least value is deleted (for the greatest it fails, rbtree_map_last_violated), and for every history in which values are inserted above all others and only the greatest is deleted."
  },
  {
   "property": "C08",
   "status": "partial",
   "theorems": [
    "Rcpr.RB.rbtree_balanced_partial",
    "Rcpr.RB.rbtree_find_steps_partial",
    "Rcpr.RB.rbtree_balanced_spare_partial",
    "Rcpr.RB.rbtree_no_red_red_partial",
    "Rcpr.RB.rbtree_balanced_violated",
    "Rcpr.RB.rbtree_unbalanced_violated"
   ],
   "note": "The code violates the claim: deleting a black leaf is not rebalanced. Proved for every history without a delete since the last clear and for every history whose deletes take no black node off a path; the first other delete always unbalances the tree (rbtree_unbalanced_violated)."
  },
  {
   "property": "C09",
   "status": "partial",
   "theorems": [
    "Rcpr.RB.rbtree_walk_partial",
    "Rcpr.RB.rbtree_walk_one_delete_partial",
    "Rcpr.RB.rbtree_walk_four_partial",
    "Rcpr.RB.rbtree_walk_first_partial",
    "Rcpr.RB.rbtree_walk_stack_partial",
    "Rcpr.RB.rbtree_walk_violated"
   ],
   "note": "Violated together with C07; proved for the same histories as there."
  },
  {
   "property": "C10",
   "status": "partial",
   "theorems": [
    "Rcpr.RB.rbtree_swap_partial",
    "Rcpr.RB.rbtree_swap_release_violated",
    "Rcpr.RB.rbtree_swap_minimum_violated"
   ],
   "note": "The code violates the claim: the sentinels are embedded in the structures, so after a swap each tree uses the sentinel of the other. Proved for lookups and inserts while both trees are alive."
  },
  {
   "property": "C100",
   "status": "partial",
   "theorems": [
    "Rcpr.Wrap.set_nonblock",
    "Rcpr.Wrap.wrap_success",
    "Rcpr.Wrap.wrap_failure",
    "Rcpr.Wrap.wrap_when",
    "Rcpr.Wrap.wrap_history",
    "Rcpr.Wrap.wrap_only_partial",
    "Rcpr.Wrap.wrap_shared_violated"
   ],
   "note": "All but the last sentence is proved without restriction. The last one is false of the code if descriptors share an open file (dup, fork, a descriptor that was sent): O_NONBLOCK belongs to the file. What the scheduler does for the discipline is an answer here, see C67."
  },
  {
   "property": "C101",
   "status": "proved",
   "theorems": [
    "Rcpr.Control.control_cleans",
    "Rcpr.Control.untried_unassigned"
   ],
   "note": "A function that tries nothing returns a value that was never assigned (untried_unassigned); the statement excludes it."
  },
  {
   "property": "C102",
   "status": "proved",
   "theorems": [
    "Rcpr.Psock.duplex",
    "Rcpr.Psock.duplex_stream",
    "Rcpr.Psock.boxed_write_through"
   ],
   "note": "The two directions of the socket below are taken to be independent, as those of a stream socket are."
  },
  {
   "property": "C103",
   "status": "partial",
   "theorems": [
    "Rcpr.Connect.connect_partial",
    "Rcpr.Connect.listen_partial",
    "Rcpr.Connect.connect_port_violated",
    "Rcpr.Connect.connect_refused_violated",
    "Rcpr.Connect.listen_inet6_violated"
   ],
   "note": "The code violates the claim in three ways: a port above 65535 is cut to 16 bits, only the first address of a host is tried, and no psock listens at an IPv6 address. Proved for ports that fit, the first address, and IPv4 addresses to listen at."
  },
  {
   "property": "C104",
   "status": "partial",
   "theorems": [
    "Rcpr.MsgHeap.read_what_was_put_partial",
    "Rcpr.MsgHeap.received_reads_partial",
    "Rcpr.MsgHeap.memory_owned_partial",
    "Rcpr.MsgHeap.answer_arrives_partial",
    "Rcpr.MsgHeap.read_freed_violated",
    "Rcpr.MsgHeap.close_leaks_violated"
   ],
   "note": "The code violates the claim when fibers are told to quiesce: a sender is told that its send failed though the message was delivered, releases it, and the receiver reads freed memory. It also leaks: if the release of a message fails when its mailbox is closed, those behind it are never released. Proved for histories without such requests in which run queue nodes can be allocated; the part about what is allocated if the releases of closed mailboxes succeed."
  },
  {
   "property": "C11",
   "status": "partial",
   "theorems": [
    "Rcpr.RB.rbtree_clear_partial",
    "Rcpr.RB.rbtree_release_partial",
    "Rcpr.RB.rbtree_clear_four_partial",
    "Rcpr.RB.rbtree_release_four_partial",
    "Rcpr.RB.rbtree_clear_first_partial",
    "Rcpr.RB.rbtree_release_first_partial",
    "Rcpr.RB.rbtree_clear_stack_partial",
    "Rcpr.RB.rbtree_release_stack_partial",
    "Rcpr.RB.rbtree_clear_violated"
   ],
   "note": "Violated together with C07: elements lost by a delete are not released. Proved for the histories of rbtree_map_partial, rbtree_map_four_partial, rbtree_map_first_partial and rbtree_map_stack_partial and all outcomes of the releases."
  },
  {
   "property": "C12",
   "status": "partial",
   "theorems": [
    "Rcpr.Bump.bump_blocks_violated",
    "Rcpr.Bump.bump_blocks_partial",
    "Rcpr.Bump.bump_refuses_iff",
    "Rcpr.Bump.bump_reset"
   ],
   "note": "The code violates the claim for sizes near 2^64 (offset wraps); proved for all histories whose sizes do not wrap."
  },
  {
   "property": "C13",
   "status": "proved",
   "theorems": [
    "Rcpr.Str.left_trim_strips",
    "Rcpr.Str.right_trim_strips",
    "Rcpr.Str.trim_strips",
    "Rcpr.Str.strip_meaning",
    "Rcpr.Str.chomp_removes_last"
   ],
   "note": ""
  },
  {
   "property": "C14",
   "status": "proved",
   "theorems": [
    "Rcpr.Str.multisplit_yields_pieces",
    "Rcpr.Str.words_yields_pieces",
    "Rcpr.Str.pieces_meaning",
    "Rcpr.Str.split_halves"
   ],
   "note": ""
  },
  {
   "property": "C15",
   "status": "proved",
   "theorems": [
    "Rcpr.Str.starts_with_iff_prefix",
    "Rcpr.Str.starts_with_null",
    "Rcpr.Str.ends_with_iff",
    "Rcpr.Str.ends_with_ascii",
    "Rcpr.Str.ends_with_non_ascii_signed"
   ],
   "note": ""
  },
  {
   "property": "C16",
   "status": "proved",
   "theorems": [
    "Rcpr.Str.strdup_copies",
    "Rcpr.Str.strdup_invalid",
    "Rcpr.Str.vstrcat_concatenates"
   ],
   "note": ""
  },
  {
   "property": "C17",
   "status": "proved",
   "theorems": [
    "Rcpr.Uuid.uuid_to_string_text",
    "Rcpr.Uuid.uuid_round_trip",
    "Rcpr.Uuid.uuid_to_string_oom"
   ],
   "note": ""
  },
  {
   "property": "C18",
   "status": "proved",
   "theorems": [
    "Rcpr.Uuid.uuid_parse_string_grammar",
    "Rcpr.Uuid.uuid_parse_string_iff",
    "Rcpr.Uuid.uuid_parse_null",
    "Rcpr.Uuid.uuid_parse_raw_grammar"
   ],
   "note": ""
  },
  {
   "property": "C19",
   "status": "proved",
   "theorems": [
    "Rcpr.Psock.write_boxed_wire",
    "Rcpr.Psock.write_boxed_succeeds",
    "Rcpr.Psock.read_boxed_round_trip",
    "Rcpr.Psock.read_boxed_succeeds",
    "Rcpr.Psock.read_raw_bool_nonzero",
    "Rcpr.Psock.encode_prefix_free"
   ],
   "note": ""
  },
  {
   "property": "C20",
   "status": "partial",
   "theorems": [
    "Rcpr.Psock.boxed_stream_violated",
    "Rcpr.Psock.boxed_stream_partial"
   ],
   "note": "The code violates the claim: a read of zero bytes at the end of a buffer psock fails with EOF, so a trailing empty string or empty data is lost. Proved for all other sequences."
  },
  {
   "property": "C21",
   "status": "proved",
   "theorems": [
    "Rcpr.Psock.read_boxed_wrong_type_never_succeeds",
    "Rcpr.Psock.read_boxed_wrong_type"
   ],
   "note": ""
  },
  {
   "property": "C22",
   "status": "proved",
   "theorems": [
    "Rcpr.Psock.buffer_output_is_concatenation",
    "Rcpr.Psock.buffer_writes_succeed",
    "Rcpr.Psock.buffer_create"
   ],
   "note": ""
  },
  {
   "property": "C23",
   "status": "proved",
   "theorems": [
    "Rcpr.Psock.write_raw_data_exact",
    "Rcpr.Psock.write_raw_data_delivers",
    "Rcpr.Psock.read_raw_data_exact",
    "Rcpr.Psock.read_raw_data_delivers"
   ],
   "note": ""
  },
  {
   "property": "C24",
   "status": "partial",
   "theorems": [
    "Rcpr.Psock.br_transparent_partial",
    "Rcpr.Psock.br_delivers",
    "Rcpr.Psock.br_transparent_violated",
    "Rcpr.Psock.br_does_not_block"
   ],
   "note": "Proved for every wrapped socket that loses nothing when a read fails (descriptor and buffer psocks). Violated over async psocks: bytes that arrive together with end of file are lost, and a blocking read does not wait."
  },
  {
   "property": "C25",
   "status": "partial",
   "theorems": [
    "Rcpr.Psock.read_line_outcome_partial",
    "Rcpr.Psock.read_line_small",
    "Rcpr.Psock.read_line_complete_partial",
    "Rcpr.Psock.read_line_truncates_partial",
    "Rcpr.Psock.read_lines_partial",
    "Rcpr.Psock.read_line_chunking_violated",
    "Rcpr.Psock.read_line_would_block_violated"
   ],
   "note": "No overflow, NUL termination and exact lines are proved for all streams and chunkings. The code violates chunk independence for a line of exactly the buffer size less one, and when the socket would block within a line."
  },
  {
   "property": "C26",
   "status": "proved",
   "theorems": [
    "Rcpr.Psock.async_read_exact",
    "Rcpr.Psock.async_read_delivers",
    "Rcpr.Psock.async_write_exact",
    "Rcpr.Psock.async_write_delivers"
   ],
   "note": ""
  },
  {
   "property": "C27",
   "status": "proved",
   "theorems": [
    "Rcpr.Disc.discipline_dispatch",
    "Rcpr.Disc.internal_dispatch",
    "Rcpr.Disc.dispatch_out_of_range"
   ],
   "note": "For up to 2^31 registered callbacks (codes are 32 bit and pass through an int)."
  },
  {
   "property": "C28",
   "status": "partial",
   "theorems": [
    "Rcpr.Disc.yield_past_end_partial",
    "Rcpr.Disc.yield_past_end_violated",
    "Rcpr.Disc.yield_unregistered"
   ],
   "note": "The code violates the claim for the event equal to the number of callbacks (> instead of >=): one element past the code vector is read. Proved for all other events."
  },
  {
   "property": "C29",
   "status": "proved",
   "theorems": [
    "Rcpr.Fiber.round_robin",
    "Rcpr.Fiber.served_in_order"
   ],
   "note": "Given that run queue nodes can be allocated."
  },
  {
   "property": "C30",
   "status": "partial",
   "theorems": [
    "Rcpr.Fiber.returns_match_calls",
    "Rcpr.Fiber.resumed_with_answer_partial",
    "Rcpr.Fiber.resumed_with_answer_violated",
    "Rcpr.Fiber.queued_once_violated"
   ],
   "note": "Proved for histories without quiesce and terminate requests, with run queue nodes available. The code violates the claim otherwise: a request to a runnable fiber queues it twice and overwrites its event."
  },
  {
   "property": "C31",
   "status": "partial",
   "theorems": [
    "Rcpr.Disc.discipline_add_partial",
    "Rcpr.Disc.discipline_add_violated"
   ],
   "note": "The code violates the claim: after a failing reallocation the discipline stays in the tree. Proved: earlier failures change nothing, and no failure changes any dispatch or the owner."
  },
  {
   "property": "C32",
   "status": "partial",
   "theorems": [
    "Rcpr.Fiber.messages_fifo_partial",
    "Rcpr.Fiber.receiver_woken_partial",
    "Rcpr.Fiber.receive_returns_partial",
    "Rcpr.Fiber.failed_send_delivers_violated",
    "Rcpr.Fiber.failed_receive_loses_violated",
    "Rcpr.Fiber.quiesced_receiver_violated"
   ],
   "note": "Proved for legal histories. The code violates the claim when a run queue node cannot be allocated (a send that fails delivers, a receive that fails loses the message) and when a blocked receiver is quiesced. The mailboxes are in a finite map here; C77 says when the tree they are in behaves like one."
  },
  {
   "property": "C33",
   "status": "partial",
   "theorems": [
    "Rcpr.Fiber.addresses_fresh",
    "Rcpr.Fiber.closed_refused",
    "Rcpr.Fiber.unknown_refused_partial",
    "Rcpr.Fiber.open_accepts_partial",
    "Rcpr.Fiber.unknown_refused_violated"
   ],
   "note": "Freshness and refusal of closed addresses hold in every history. An address that no create returned can be accepted: a create that fails for lack of a run queue node leaves its mailbox open. The tree of mailboxes is a finite map here, see C77."
  },
  {
   "property": "C34",
   "status": "partial",
   "theorems": [
    "Rcpr.Fiber.close_wakes_receiver_violated"
   ],
   "note": "The code violates the claim in every history: the receiver never runs again."
  },
  {
   "property": "C35",
   "status": "partial",
   "theorems": [
    "Rcpr.Fiber.create_reports_partial",
    "Rcpr.Fiber.create_reports_violated",
    "Rcpr.Sched.sched_create_reports_partial",
    "Rcpr.Sched.sched_create_succeeds",
    "Rcpr.Sched.sched_create_reports_violated",
    "Rcpr.Sched.sched_create_undefined_violated",
    "Rcpr.Psock.br_create_violated",
    "Rcpr.Psock.br_create_partial"
   ],
   "note": "The code violates the claim in all four functions: clean-up code tests the wrong status and reports success."
  },
  {
   "property": "C36",
   "status": "partial",
   "theorems": [
    "Rcpr.Fiber.waiters_fifo_partial",
    "Rcpr.Fiber.notify_one_wakes_partial",
    "Rcpr.Fiber.notify_all_wakes_partial",
    "Rcpr.Fiber.waiters_fifo_violated"
   ],
   "note": "Proved for legal histories. The code violates the claim when a run queue node cannot be allocated: the waiter is dropped and success is reported. The tree of barriers is a finite map here, see C77."
  },
  {
   "property": "C37",
   "status": "partial",
   "theorems": [
    "Rcpr.Fiber.close_wakes_waiters_violated"
   ],
   "note": "The code violates the claim in every history: the waiters never run again."
  },
  {
   "property": "C38",
   "status": "partial",
   "theorems": [
    "Rcpr.Trigger.trigger_fires_partial",
    "Rcpr.Trigger.trigger_total",
    "Rcpr.Trigger.trigger_once_partial",
    "Rcpr.Trigger.trigger_reentrant_signal_violated",
    "Rcpr.Trigger.trigger_reentrant_register_violated",
    "Rcpr.Trigger.trigger_reentrant_step_violated",
    "Rcpr.Trigger.trigger_reentrant_step_diverges",
    "Rcpr.Trigger.trigger_create"
   ],
   "note": "Proved in full for listeners that do not use the trigger from within their call. The code violates the claim for re-entrant use: the reset after the call loses signals and rejects registrations made by the listener, and a listener that steps is called again."
  },
  {
   "property": "C39",
   "status": "partial",
   "theorems": [
    "Rcpr.Fds.setfds_partial",
    "Rcpr.Fds.setfds_violated",
    "Rcpr.Fds.setfds_bad_arguments",
    "Rcpr.Fds.setfds_not_open",
    "Rcpr.Fds.move_descriptors_partial",
    "Rcpr.Fds.move_descriptors_violated",
    "Rcpr.Fds.move_then_set"
   ],
   "note": "The code violates the claim when a target is the source itself or a later source. Proved for all other argument lists, and in full for the documented protocol (move_descriptors, then setfds)."
  },
  {
   "property": "C40",
   "status": "partial",
   "theorems": [
    "Rcpr.Epoll.epoll_pass_partial",
    "Rcpr.Epoll.epoll_hangup_violated",
    "Rcpr.Epoll.epoll_rearm_failure_violated",
    "Rcpr.Epoll.epoll_add_failure",
    "Rcpr.Poll.poll_pass_partial",
    "Rcpr.Poll.poll_wake_event",
    "Rcpr.Poll.poll_wait_registers",
    "Rcpr.Poll.poll_error_violated",
    "Rcpr.Poll.poll_error_never_wakes",
    "Rcpr.Kqueue.kqueue_pass",
    "Rcpr.Kqueue.kqueue_wait",
    "Rcpr.Kqueue.kqueue_flush_failure_violated"
   ],
   "note": "The code violates the claim: with epoll a hang-up or error reported alone wakes nobody, with poll an error or invalid descriptor reported alone. Every other event is proved to wake exactly its fiber, on all three platforms."
  },
  {
   "property": "C41",
   "status": "proved",
   "theorems": [
    "Rcpr.ntoh_hton",
    "Rcpr.hton_big_endian",
    "Rcpr.shadow_byteswap64_wrong"
   ],
   "note": "shadow_byteswap64_wrong concerns the byteswap copy used only by the CBMC models."
  },
  {
   "property": "C42",
   "status": "proved",
   "theorems": [
    "Rcpr.Bigint.bigint_refines_values",
    "Rcpr.Bigint.bigint_memory_meaning"
   ],
   "note": ""
  },
  {
   "property": "C43",
   "status": "proved",
   "theorems": [
    "Rcpr.status_code_decodes",
    "Rcpr.status_code_injective",
    "Rcpr.status_code_ne_success",
    "Rcpr.all_errors_distinct",
    "Rcpr.all_errors_wellformed"
   ],
   "note": ""
  },
  {
   "property": "C44",
   "status": "proved",
   "theorems": [
    "Rcpr.SList.slist_insert_oom",
    "Rcpr.DList.list_insert_oom",
    "Rcpr.Queue.queue_insert_oom",
    "Rcpr.Queue.queue_create_oom",
    "Rcpr.RB.rbtree_insert_failure"
   ],
   "note": ""
  },
  {
   "property": "C45",
   "status": "partial",
   "theorems": [
    "Rcpr.SList.slist_failed_clear_violated",
    "Rcpr.SList.slist_failed_clear_partial",
    "Rcpr.DList.list_failed_clear_violated",
    "Rcpr.DList.list_failed_clear_partial"
   ],
   "note": "The code violates the claim: the tail pointer is left on the leaked node."
  },
  {
   "property": "C46",
   "status": "proved",
   "theorems": [
    "Rcpr.Psock.read_buffer_accounted"
   ],
   "note": ""
  },
  {
   "property": "C47",
   "status": "partial",
   "theorems": [
    "Rcpr.Psock.failed_write_corrupts_output"
   ],
   "note": "The code violates the claim: the bytes of the failed write stay in the buffer but are not counted. Sequences without failure are covered by C22."
  },
  {
   "property": "C48",
   "status": "partial",
   "theorems": [
    "Rcpr.Psock.async_write_size_violated",
    "Rcpr.Psock.async_write_size_partial"
   ],
   "note": "The code violates the claim when the peer takes no more bytes or the wait fails: the full size is reported."
  },
  {
   "property": "C49",
   "status": "partial",
   "theorems": [
    "Rcpr.Psock.br_create_violated",
    "Rcpr.Psock.br_create_partial"
   ],
   "note": "The code violates the claim: the clean-up path tests the wrong status and returns success."
  },
  {
   "property": "C50",
   "status": "proved",
   "theorems": [
    "Rcpr.Psock.boxed_over_async"
   ],
   "note": ""
  },
  {
   "property": "C51",
   "status": "partial",
   "theorems": [
    "Rcpr.Fds.close_other_fds_partial",
    "Rcpr.Fds.close_other_fds_violated",
    "Rcpr.Fds.close_standard_fds"
   ],
   "note": "The code violates the claim for descriptors not below FD_SETSIZE."
  },
  {
   "property": "C52",
   "status": "partial",
   "theorems": [
    "Rcpr.Epoll.epoll_waiters_partial",
    "Rcpr.Epoll.epoll_lost_waiter_violated",
    "Rcpr.Epoll.epoll_double_block",
    "Rcpr.Epoll.epoll_block_refused",
    "Rcpr.Epoll.epoll_oneshot",
    "Rcpr.Poll.poll_no_fiber_lost",
    "Rcpr.Kqueue.kqueue_waiters_partial",
    "Rcpr.Kqueue.kqueue_lost_waiter_violated"
   ],
   "note": "Proved in full for poll. With kqueue the code violates the claim when two fibers wait for the same on one descriptor, or the flush of a full array of changes fails; proved for all other executions. With epoll the code violates the claim when a second fiber blocks on a socket before the fiber woken there has run; proved for all other executions."
  },
  {
   "property": "C53",
   "status": "partial",
   "theorems": [
    "Rcpr.Fiber.request_taken_for_result_violated",
    "Rcpr.Fiber.request_reported_partial"
   ],
   "note": "The code violates the claim for sends and closes, whose codes coincide with those of requests. Proved for all other calls."
  },
  {
   "property": "C54",
   "status": "partial",
   "theorems": [
    "Rcpr.Fiber.overtaking_violated",
    "Rcpr.Fiber.pingpong_violated",
    "Rcpr.Fiber.served_in_order"
   ],
   "note": "The code violates the claim: calls answered at once go to the front of the queue, so one fiber, or two that exchange messages, can keep a third from running for ever. It holds if all make only plain yields and notifications (C29)."
  },
  {
   "property": "C55",
   "status": "partial",
   "theorems": [
    "Rcpr.Sched.sched_release_partial",
    "Rcpr.Sched.sched_release_violated",
    "Rcpr.Sched.sched_create_leaks_violated",
    "Rcpr.Sched.sched_create_undefined_violated"
   ],
   "note": "The code violates the claim: the context is never reclaimed. All other objects are, for every answer of the allocator."
  },
  {
   "property": "C56",
   "status": "proved",
   "theorems": [
    "Rcpr.Asm.layout_agrees",
    "Rcpr.Asm.switch_transparent",
    "Rcpr.Asm.switch_self",
    "Rcpr.Asm.switch_writes",
    "Rcpr.Asm.switch_no_fault",
    "Rcpr.Asm.resume_event_round_trip"
   ],
   "note": "Proved on a model of the processor that executes the instructions of fiber_switch.s."
  },
  {
   "property": "C57",
   "status": "proved",
   "theorems": [
    "Rcpr.Asm.new_fiber_starts",
    "Rcpr.Asm.make_returns",
    "Rcpr.Asm.make_room",
    "Rcpr.Asm.make_room_needed"
   ],
   "note": "Proved for stacks of at least 79 bytes; smaller ones break the platform rules that the documentation mentions."
  },
  {
   "property": "C58",
   "status": "partial",
   "theorems": [
    "Rcpr.Asm.finish_violated",
    "Rcpr.Asm.finish_exit_code"
   ],
   "note": "The code violates the claim: a missing $ makes the exit code a load from address 1, which faults."
  },
  {
   "property": "C59",
   "status": "partial",
   "theorems": [
    "Rcpr.Fiber.request_refused",
    "Rcpr.Fiber.request_delivered",
    "Rcpr.Fiber.request_answered",
    "Rcpr.Fiber.request_success_genuine",
    "Rcpr.Fiber.request_all_partial",
    "Rcpr.Fiber.request_all_violated"
   ],
   "note": "Requests to one fiber are proved for all histories. A request to all is documented to reach all running fibers; the main fiber and the idle fiber are not told. Proved for the fibers that were added."
  },
  {
   "property": "C60",
   "status": "proved",
   "theorems": [
    "Rcpr.Life.thread_contract",
    "Rcpr.Life.mutex_contract",
    "Rcpr.Life.cond_contract",
    "Rcpr.Life.stack_contract",
    "Rcpr.Life.fiber_contract",
    "Rcpr.Life.fiber_for_thread_contract",
    "Rcpr.Life.block_contract",
    "Rcpr.Life.tree_contract",
    "Rcpr.Life.queue_contract",
    "Rcpr.Life.bigint_contract",
    "Rcpr.Life.message_contract",
    "Rcpr.Life.empty_message_contract",
    "Rcpr.Life.mailbox_contract",
    "Rcpr.Life.barrier_contract",
    "Rcpr.Life.context_contract",
    "Rcpr.Life.discipline_contract",
    "Rcpr.Life.descriptor_contract",
    "Rcpr.Life.hostname_contract",
    "Rcpr.Life.listen_contract",
    "Rcpr.Life.user_contract",
    "Rcpr.Life.empty_user_contract",
    "Rcpr.Life.input_buffer_contract",
    "Rcpr.Life.output_buffer_contract",
    "Rcpr.Life.epoll_contract",
    "Rcpr.Life.poll_contract",
    "Rcpr.Life.io_discipline_contract",
    "Rcpr.Life.async_contract"
   ],
   "note": "Contract, in Props/Life, is the specification of C60 and C61. The buffered reader is the subject of C49; for it br_contract_partial shows that nothing is left behind."
  },
  {
   "property": "C61",
   "status": "proved",
   "theorems": [
    "Rcpr.Life.thread_contract",
    "Rcpr.Life.mutex_contract",
    "Rcpr.Life.cond_contract",
    "Rcpr.Life.stack_contract",
    "Rcpr.Life.fiber_contract",
    "Rcpr.Life.fiber_for_thread_contract",
    "Rcpr.Life.block_contract",
    "Rcpr.Life.tree_contract",
    "Rcpr.Life.queue_contract",
    "Rcpr.Life.bigint_contract",
    "Rcpr.Life.message_contract",
    "Rcpr.Life.empty_message_contract",
    "Rcpr.Life.mailbox_contract",
    "Rcpr.Life.barrier_contract",
    "Rcpr.Life.context_contract",
    "Rcpr.Life.discipline_contract",
    "Rcpr.Life.descriptor_contract",
    "Rcpr.Life.hostname_contract",
    "Rcpr.Life.listen_contract",
    "Rcpr.Life.user_contract",
    "Rcpr.Life.empty_user_contract",
    "Rcpr.Life.input_buffer_contract",
    "Rcpr.Life.output_buffer_contract",
    "Rcpr.Life.epoll_contract",
    "Rcpr.Life.poll_contract",
    "Rcpr.Life.io_discipline_contract",
    "Rcpr.Life.async_contract",
    "Rcpr.Life.br_contract_partial",
    "Rcpr.Life.thread_release_exit_code"
   ],
   "note": "For a thread the contract is stated for exit code 0, because its release returns the exit code."
  },
  {
   "property": "C62",
   "status": "partial",
   "theorems": [
    "Rcpr.Life.failure_sets_nothing_partial",
    "Rcpr.Life.null_on_failure_violated"
   ],
   "note": "The code violates the claim: the variable keeps its former contents. Proved: it never points at something released."
  },
  {
   "property": "C63",
   "status": "proved",
   "theorems": [
    "Rcpr.Life.history_balanced"
   ],
   "note": "Given that releases are not refused; failures of acquisitions are arbitrary."
  },
  {
   "property": "C64",
   "status": "partial",
   "theorems": [
    "Rcpr.Life.thread_rest",
    "Rcpr.Life.mutex_rest",
    "Rcpr.Life.cond_rest",
    "Rcpr.Life.block_rest",
    "Rcpr.Life.queue_rest",
    "Rcpr.Life.bigint_rest",
    "Rcpr.Life.message_rest",
    "Rcpr.Life.mailbox_rest",
    "Rcpr.Life.barrier_rest",
    "Rcpr.Life.context_rest",
    "Rcpr.Life.discipline_rest",
    "Rcpr.Life.descriptor_rest",
    "Rcpr.Life.hostname_rest",
    "Rcpr.Life.listen_rest",
    "Rcpr.Life.user_rest",
    "Rcpr.Life.input_buffer_rest",
    "Rcpr.Life.output_buffer_rest",
    "Rcpr.Life.br_rest",
    "Rcpr.Life.epoll_rest",
    "Rcpr.Life.poll_rest",
    "Rcpr.Life.async_rest",
    "Rcpr.Life.io_discipline_rest",
    "Rcpr.Life.stack_rest_violated",
    "Rcpr.Life.fiber_rest_violated",
    "Rcpr.Life.fiber_release_violated",
    "Rcpr.Life.thread_join_failure_violated",
    "Rcpr.Life.destroy_failure_violated"
   ],
   "note": "The code violates the claim: a stack that cannot be unmapped keeps its structure for ever, and a thread, mutex or condition variable that cannot be joined or destroyed loses its structure while it is in use. Proved for all other objects: when one step is refused all other parts are given back and an error is reported."
  },
  {
   "property": "C65",
   "status": "partial",
   "theorems": [
    "Rcpr.Life.scheduler_balanced_partial",
    "Rcpr.Life.scheduler_balanced_willing_partial",
    "Rcpr.Life.idle_added_violated",
    "Rcpr.Life.idle_exit_violated",
    "Rcpr.Life.idle_replaced_violated",
    "Rcpr.Life.discipline_add_failure_violated",
    "Rcpr.Life.fiber_add_failure_violated"
   ],
   "note": "The code violates the claim in five ways, each with a witness. Proved for all histories in which no failing call has left an entry in a tree and no idle fiber is an added one or replaced; these conditions hold of themselves when nothing is refused and the program leaves the idle fiber to the library."
  },
  {
   "property": "C66",
   "status": "partial",
   "theorems": [
    "Rcpr.Life.discipline_stable_partial",
    "Rcpr.Life.discipline_granted",
    "Rcpr.Life.discipline_stable_violated"
   ],
   "note": "The code violates the claim after a refused reallocation: the tree keeps a released discipline. Proved for all histories free of that."
  },
  {
   "property": "C67",
   "status": "partial",
   "theorems": [
    "Rcpr.Life.idle_present_partial",
    "Rcpr.Life.idle_present_violated"
   ],
   "note": "The code violates the claim after a call that could not create the idle fiber. Proved for all histories in which the calls so far have succeeded."
  },
  {
   "property": "C68",
   "status": "partial",
   "theorems": [
    "Rcpr.Msg.datagram_only",
    "Rcpr.Msg.history_partial",
    "Rcpr.Msg.transfer",
    "Rcpr.Msg.two_descriptors_violated"
   ],
   "note": "The code violates the claim for a message with two descriptors: the control buffer has room for both (alignment), the second is never closed or reported. Proved for all histories whose messages carry at most one descriptor, which includes all messages sent by psock_write_raw_descriptor (transfer)."
  },
  {
   "property": "C69",
   "status": "proved",
   "theorems": [
    "Rcpr.Msg.async_never_would_block",
    "Rcpr.Msg.async_read_ends",
    "Rcpr.Msg.async_accept_ends",
    "Rcpr.Msg.async_write_ends",
    "Rcpr.Msg.async_direct",
    "Rcpr.Msg.history_partial"
   ],
   "note": "history_partial covers async psocks: the work is done once. Waits are a parameter; a would-block status may only come from a failed wait."
  },
  {
   "property": "C70",
   "status": "partial",
   "theorems": [
    "Rcpr.Msg.br_accept_passes",
    "Rcpr.Msg.buffer_refuses",
    "Rcpr.Msg.user_accept",
    "Rcpr.Msg.async_direct",
    "Rcpr.Msg.setsockopt_passes_violated",
    "Rcpr.Msg.br_descriptors_violated",
    "Rcpr.Msg.user_methods_violated"
   ],
   "note": "The code violates the claim: buffered readers have socket type 0 and refuse descriptors, options pass through no wrapper, and the user's setsockopt is never called. Proved for accept."
  },
  {
   "property": "C71",
   "status": "partial",
   "theorems": [
    "Rcpr.Vtable.genuine_calls",
    "Rcpr.Vtable.outside_refused",
    "Rcpr.Vtable.refused_allocation_is_null",
    "Rcpr.Vtable.called_word_partial",
    "Rcpr.Vtable.user_genuine_partial",
    "Rcpr.Vtable.user_missing",
    "Rcpr.Vtable.assertion_without_effect",
    "Rcpr.Vtable.one_past_end_violated",
    "Rcpr.Vtable.interior_violated",
    "Rcpr.Vtable.other_kind_violated",
    "Rcpr.Vtable.assertion_ndebug_violated",
    "Rcpr.Vtable.user_table_violated"
   ],
   "note": "The code violates the claim in five ways: the end of the section is accepted, so are pointers into the middle of a table and tables of another kind, the default form of the check vanishes with NDEBUG, and the tables of user methods are not checked. Proved: genuine tables are never refused, pointers outside the section always are, and a callee read from the section is a method of the section."
  },
  {
   "property": "C72",
   "status": "partial",
   "theorems": [
    "Rcpr.Malloc.history_partial",
    "Rcpr.Malloc.history_strict",
    "Rcpr.Malloc.regions_disjoint",
    "Rcpr.Malloc.nothing_left",
    "Rcpr.Malloc.create_fails",
    "Rcpr.Malloc.zero_size_violated"
   ],
   "note": "The code violates the claim when a region is resized to 0 bytes and the C library's realloc frees then (glibc): the call reports out of memory and the reclaim it asks for is a double free. Proved for all clients that do not resize to 0, and for all clients with a library that treats 0 as a size."
  },
  {
   "property": "C73",
   "status": "partial",
   "theorems": [
    "Rcpr.Thread.never_undefined_partial",
    "Rcpr.Thread.exit_code_partial",
    "Rcpr.Thread.kept_partial",
    "Rcpr.Thread.completes_partial",
    "Rcpr.Thread.self_release_violated",
    "Rcpr.Thread.circle_violated"
   ],
   "note": "The code violates the claim when the join is refused: a thread that releases itself, or two threads that release each other, have their structure reclaimed while they run, and thread_start stores into it. Proved for all interleavings in which each thread is released at most once and not in a circle."
  },
  {
   "property": "C74",
   "status": "proved",
   "theorems": [
    "Rcpr.Monitor.monitor_sound",
    "Rcpr.Monitor.excluded",
    "Rcpr.Monitor.Buffer.bounded_buffer"
   ],
   "note": "Soundness of per-thread proof outlines. The semantics of POSIX threads is part of the model; Buffer.bounded_buffer is an application to a bounded buffer with any capacity and any number of threads."
  },
  {
   "property": "C75",
   "status": "proved",
   "theorems": [
    "Rcpr.Monitor.no_lost_wakeup",
    "Rcpr.Monitor.wakeup_available",
    "Rcpr.Monitor.Buffer.bounded_buffer"
   ],
   "note": "By counting wake-ups that are due, given and owed."
  },
  {
   "property": "C76",
   "status": "partial",
   "theorems": [
    "Rcpr.Monitor.acquire_unchanged_partial",
    "Rcpr.Monitor.acquire_null_violated",
    "Rcpr.Monitor.stale_lock_violated"
   ],
   "note": "The code violates the claim: the variable is left as it was. Witness of a client that then unlocks a mutex it does not own."
  },
  {
   "property": "C77",
   "status": "partial",
   "theorems": [
    "Rcpr.MsgTree.trees_are_maps_partial",
    "Rcpr.MsgTree.trees_are_maps_legal_partial",
    "Rcpr.MsgTree.open_found_partial",
    "Rcpr.MsgTree.closed_lost_partial",
    "Rcpr.MsgTree.oldest_first_maps_partial",
    "Rcpr.MsgTree.oldest_first_found_partial",
    "Rcpr.MsgTree.newest_first_maps_partial",
    "Rcpr.MsgTree.newest_first_found_partial",
    "Rcpr.MsgTree.open_found_violated",
    "Rcpr.MsgTree.waiter_found_violated"
   ],
   "note": "The code violates the claim: with up to five mailboxes open at a time, an open one is lost through the fault of rbtree_delete (C07). Proved for any calls and failures as long as mailboxes and conditions are closed in the order of their creation, or in the opposite order, or each tree has at most four entries at a time, has one delete, or has no delete while an only child is black: then what is seen is what the model with finite maps shows, so that the theorems for C29-C37, C53, C54 and C59 apply."
  },
  {
   "property": "C78",
   "status": "proved",
   "theorems": [
    "Rcpr.Io.success_means_ready",
    "Rcpr.Io.no_stray_events"
   ],
   "note": "For the epoll back end, in a scheduler with any fibers, sockets and requests."
  },
  {
   "property": "C79",
   "status": "partial",
   "theorems": [
    "Rcpr.Io.requests_arrive_partial",
    "Rcpr.Io.requests_told_partial",
    "Rcpr.Io.handler_decides",
    "Rcpr.Io.requests_told_violated",
    "Rcpr.Io.requests_end_violated",
    "Rcpr.Io.requests_need_owner"
   ],
   "note": "The code violates the claim: a request to a fiber that was woken and has not run yet is told twice, and the second time may run a fiber past its end. Proved if requests are sent to fibers that are not runnable, run queue nodes can be allocated, and each socket is used by the fiber it was made for, as psock.h asks; requests_need_owner shows that otherwise another handler is called."
  },
  {
   "property": "C80",
   "status": "partial",
   "theorems": [
    "Rcpr.MsgOwn.mailbox_owns_partial",
    "Rcpr.MsgOwn.handed_over_partial",
    "Rcpr.MsgOwn.send_error_partial",
    "Rcpr.MsgOwn.two_owners_violated",
    "Rcpr.MsgOwn.failed_send_shares_violated",
    "Rcpr.MsgOwn.message_lost_violated"
   ],
   "note": "The code violates the claim: after a quiesce request at the wrong moment two fibers are told that they own the same message, or a message is lost, and a send that fails for want of a run queue node leaves its message in the mailbox. Proved for histories without requests in which run queue nodes can be allocated; all other allocations may fail."
  },
  {
   "property": "C81",
   "status": "partial",
   "theorems": [
    "Rcpr.FibTree.fibers_known_partial",
    "Rcpr.FibTree.add_owns_partial",
    "Rcpr.FibTree.add_announced",
    "Rcpr.FibTree.remove_owned_partial",
    "Rcpr.FibTree.request_reaches_owned_partial",
    "Rcpr.FibTree.request_reaches_owned_violated",
    "Rcpr.FibTree.failed_remove_forgets_violated",
    "Rcpr.FibTree.failed_add_keeps_violated"
   ],
   "note": "The code violates the claim: with up to five fibers at a time, two fibers are lost through the fault of rbtree_delete (C07), so that a request to all does not reach them and they cannot be removed; if reclaiming the tree node fails, removal fails and the fiber is gone nevertheless; if there is no run queue node for the caller, adding fails and the scheduler keeps the fiber. Proved without these two failures, as long as the tree has at most four entries at a time, has one delete, has no delete while an only child is black, or the fiber removed is the one with the least address. No fiber is added while it is owned."
  },
  {
   "property": "C82",
   "status": "partial",
   "theorems": [
    "Rcpr.Io.no_waiter_lost_partial",
    "Rcpr.Io.reported_runs_partial",
    "Rcpr.Io.owned_waiter_runs_partial",
    "Rcpr.Io.no_waiter_lost_violated",
    "Rcpr.Io.arming_failure_violated"
   ],
   "note": "The code violates the claim: if two fibers wait for the same side of a socket one may be forgotten, because the first to come back clears the registration of the second; and if epoll_ctl fails in the idle fiber the failure is ignored and the waiting fiber is never reported. Proved if no two fibers wait for the same side at a time, which follows if each socket is used by the fiber it was made for as psock.h asks, and arming in the idle fiber succeeds; arming may fail in the waits themselves, all allocations but those of the idle fiber may fail, and requests come at any time."
  },
  {
   "property": "C83",
   "status": "proved",
   "theorems": [
    "Rcpr.Net.net_reliable",
    "Rcpr.Net.net_deterministic",
    "Rcpr.Net.net_finished",
    "Rcpr.Net.net_stuck",
    "Rcpr.Net.net_same_end",
    "Rcpr.Net.net_no_spin",
    "Rcpr.Net.net_all_end",
    "Rcpr.Net.net_threshold_needed"
   ],
   "note": "No requests are sent, no allocation or epoll_ctl fails, and sockets stay open. That all executions come to the same end needs a kernel that reports a socket writable as soon as there is room; net_threshold_needed shows that it is not so otherwise. That what is seen is the same needs no such assumption and holds across kernels with different buffers."
  },
  {
   "property": "C84",
   "status": "partial",
   "theorems": [
    "Rcpr.Psock.read_raw_buffer",
    "Rcpr.Psock.read_raw_br",
    "Rcpr.Psock.read_raw_descriptor_partial",
    "Rcpr.Psock.read_raw_async_partial",
    "Rcpr.Psock.read_raw_async_takes_all",
    "Rcpr.Psock.read_raw_br_withholds",
    "Rcpr.Psock.read_raw_descriptor_violated",
    "Rcpr.Psock.read_raw_async_violated"
   ],
   "note": "The code violates the claim: an async psock drops bytes when the end of the stream or an error follows them within one call, and a descriptor psock reports the size of the buffer together with would-block although nothing was read. Proved in full for buffers in memory and buffered readers; for descriptors if the size is looked at after success only; for async psocks every byte is accounted for, and dropped only by a call that answers an error other than would-block."
  },
  {
   "property": "C85",
   "status": "partial",
   "theorems": [
    "Rcpr.Echo.echo_sends_back",
    "Rcpr.Echo.echo_exact",
    "Rcpr.Echo.echo_all_partial",
    "Rcpr.Echo.echo_violated"
   ],
   "note": "The code violates the claim: a last message of less than 1024 bytes is lost if the peer closes its end before the message is read. echo_exact says for all splits exactly what is sent back; echo_all_partial is the claim for peers that wait before they close."
  },
  {
   "property": "C86",
   "status": "partial",
   "theorems": [
    "Rcpr.EchoLife.connections_balanced_partial",
    "Rcpr.EchoLife.connections_open_partial",
    "Rcpr.EchoLife.connections_defined_partial",
    "Rcpr.EchoLife.refusal_violated"
   ],
   "note": "The code violates the claim: whatever is refused after the psock of a connection has been created, the server reads through NULL or closes the descriptor twice (proved for each of the ten places). Proved for every history that can be carried out, among them all in which only accept or the psock is refused."
  },
  {
   "property": "C87",
   "status": "proved",
   "theorems": [
    "Rcpr.FibMem.queues_in_memory",
    "Rcpr.FibMem.refused_without_node",
    "Rcpr.FibMem.teardown_leaves_nothing"
   ],
   "note": "Fibers and messages are not NULL; the allocator hands out unused blocks with 64 bit addresses; trees are maps (C77, C81); reclaiming a node or list succeeds."
  },
  {
   "property": "C88",
   "status": "partial",
   "theorems": [
    "Rcpr.FibMem.close_releases_unread_partial",
    "Rcpr.FibMem.teardown_releases_unread_partial",
    "Rcpr.FibMem.messages_accounted_partial",
    "Rcpr.FibMem.failed_send_released_violated",
    "Rcpr.FibMem.message_lost_violated"
   ],
   "note": "The code violates the claim: a send that fails for want of a run queue node leaves its message in the mailbox, which releases it, and a message sent to a fiber that had been asked to quiesce while it waited is neither received nor released. Proved for histories without requests in which no run queue node is refused; every other allocation may fail."
  },
  {
   "property": "C89",
   "status": "partial",
   "theorems": [
    "Rcpr.Props.Mandel.frames_complete_partial",
    "Rcpr.Props.Mandel.no_race_partial",
    "Rcpr.Props.Mandel.spurious_violated"
   ],
   "note": "The code violates the claim: main waits without a loop (main.c:186), and a wake-up without a signal makes it use pointers that were never initialised. Proved for all executions in which main wakes up only when signalled; workers may wake up at any time and calls may fail (quiesce is written without the lock after failures). Thread creation, mutex and condition creation and malloc succeed."
  },
  {
   "property": "C90",
   "status": "partial",
   "theorems": [
    "Rcpr.Props.Mandel.frames_finish_partial",
    "Rcpr.Props.Mandel.steps_bounded",
    "Rcpr.Props.Mandel.lost_wakeup_violated",
    "Rcpr.Props.Mandel.cleanup_hangs",
    "Rcpr.Props.Mandel.cleanup_hangs_violated",
    "Rcpr.Props.Mandel.worker_failure_hangs_violated"
   ],
   "note": "The code violates the claim: if main broadcasts before any worker waits, everybody waits for ever; after a failed broadcast or wait main waits for the lock it holds; and a worker whose wait fails tells nobody, so that main waits for ever. Proved: executions are bounded, and if a worker has the lock before main first takes it, they end with all frames written."
  },
  {
   "property": "C91",
   "status": "proved",
   "theorems": [
    "Rcpr.Net.talk_safe",
    "Rcpr.Net.talk_ends",
    "Rcpr.Net.talk_bounded",
    "Rcpr.Net.talk_comes_to_end",
    "Rcpr.Net.talk_legal",
    "Rcpr.Net.talk_order_needed"
   ],
   "note": "Under the simplifications of C83: no requests, no failures of allocations or epoll_ctl, sockets stay open. The kernel may report a socket writable only when its buffer is nearly empty. talk_order_needed shows that fibers which all send first may wait for ever."
  },
  {
   "property": "C92",
   "status": "partial",
   "theorems": [
    "Rcpr.EchoStop.server_sound_partial",
    "Rcpr.EchoStop.server_open_partial",
    "Rcpr.EchoStop.server_closed_partial",
    "Rcpr.EchoStop.server_goes_on_partial",
    "Rcpr.EchoStop.server_answers_partial",
    "Rcpr.EchoStop.server_quiesced_partial",
    "Rcpr.EchoStop.server_no_more_partial",
    "Rcpr.EchoStop.server_ends_partial",
    "Rcpr.EchoStop.released_used_violated",
    "Rcpr.EchoStop.left_open_violated"
   ],
   "note": "Proved if epoll_wait names the signal last among what it reports at once, and the first value comes after main has begun to wait. Without the first a fiber is resumed after it was released (released_used_violated), without the second a connection is left open (left_open_violated). Reads of the signal and allocations succeed; addresses of fibers are not used again."
  },
  {
   "property": "C93",
   "status": "partial",
   "theorems": [
    "Rcpr.RB.rbtree_navigable_partial",
    "Rcpr.RB.rbtree_navigable_one_delete_partial",
    "Rcpr.RB.rbtree_navigable_four_partial",
    "Rcpr.RB.rbtree_navigable_first_partial",
    "Rcpr.RB.rbtree_navigable_stack_partial",
    "Rcpr.RB.rbtree_navigable_short_partial",
    "Rcpr.RB.rbtree_navigable_violated"
   ],
   "note": "Violated together with C07: after the fault of rbtree_delete a tree of three values shows none. Proved for the same histories as C07 and C09."
  },
  {
   "property": "C94",
   "status": "proved",
   "theorems": [
    "Rcpr.Life.payload_owned_once",
    "Rcpr.Life.payload_nothing_left",
    "Rcpr.Life.payload_handed_over"
   ],
   "note": "Given that releases are not refused; failures of allocations are arbitrary."
  },
  {
   "property": "C95",
   "status": "partial",
   "theorems": [
    "Rcpr.EchoLife.signal_thread_all_or_nothing",
    "Rcpr.EchoLife.listen_entry_balanced",
    "Rcpr.EchoLife.main_left_partial",
    "Rcpr.EchoLife.main_early_partial",
    "Rcpr.EchoLife.main_runs_partial",
    "Rcpr.EchoLife.main_leaks_violated",
    "Rcpr.EchoLife.main_sockets_violated"
   ],
   "note": "Proved for signal_thread_create and listen_entry, given that releases are not refused. For main: exactly what is left at each end (main_left_partial), and nothing if one of the two fibers cannot be made. False of the code after that: the context of the signal thread with its socket and the psock of the other end are released by nobody, the listen context leaks if a later step fails, and a descriptor leaks if no psock can be made of it. Runs in which fiber_scheduler_add fails half way (C65) are left out of main_left_partial."
  },
  {
   "property": "C96",
   "status": "partial",
   "theorems": [
    "Rcpr.MandelLife.error_returns_partial",
    "Rcpr.MandelLife.main_runs_partial",
    "Rcpr.MandelLife.success_leaves_violated",
    "Rcpr.MandelLife.thread_refused_violated"
   ],
   "note": "Proved, given that releases are not refused: after the errors 1 and 2 nothing is left, after 4 to 8 and 11 exactly the structure of the configuration (config_resource_release does not reclaim it), and when nothing is refused main returns 0. False of the code: on success everything but the allocator and the file name prefix is left; a refused thread is released through NULL; a refused line, file or file name prefix is used through NULL (examples)."
  },
  {
   "property": "C97",
   "status": "partial",
   "theorems": [
    "Rcpr.EchoStop.listens_partial",
    "Rcpr.EchoStop.deaf_violated"
   ],
   "note": "Proved as long as no call of the listen fiber fails. False of the code otherwise: listen_entry ends, the management fiber removes it, and main waits for the signal; deaf_violated shows for every such state that the process neither ends nor takes a connection until a signal comes."
  },
  {
   "property": "C98",
   "status": "partial",
   "theorems": [
    "Rcpr.Psock.long_string_refused",
    "Rcpr.Psock.long_data_partial",
    "Rcpr.Psock.long_data_violated",
    "Rcpr.Psock.long_data_read_violated"
   ],
   "note": "Proved for strings of every length, and for data whose length fits in 32 bits. False of the code for longer data: the size is cut to 32 bits (only a model assertion, which production builds leave out, says otherwise), so that the peer reads a shorter value and then bytes from the middle of the data."
  },
  {
   "property": "C99",
   "status": "partial",
   "theorems": [
    "Rcpr.MandelFile.rounds_counts",
    "Rcpr.MandelFile.frame_is_image_partial",
    "Rcpr.MandelFile.frame_is_image_violated",
    "Rcpr.MandelFile.names_distinct"
   ],
   "note": "Proved where char is unsigned, or if no shade is above 127. False of the code where char is signed, as on x86: such a shade is stored as a negative char and printed with %u as a number near 2^32, so that the file is no image. Floating point arithmetic is a parameter."
  }
 ]
}