# Design of the formal model of rcpr

The source under study is `/repo` (C). The model is Lean 4, in `lean/Verif`.
Nothing in `/repo` is compiled or run; every model definition cites the file
and line numbers it was transcribed from.

## Trusted base

* Lean's kernel (4.33.0) and the three standard axioms `propext`,
  `Classical.choice`, `Quot.sound`. Every theorem in `MANIFEST.json` depends on
  a subset of these three; the refutations by evaluation (`…_violated`, proved
  by `decide` or `decide +kernel`) mostly on `propext` alone. No axioms are
  added; no `sorry`, `admit`, `native_decide` or `bv_decide`.
* The transcription of C into Lean (by hand). Conventions:
  * objects on the heap are rows of a partial map indexed by an address;
    reading or writing an address that is not allocated is *undefined
    behaviour* and is a distinct outcome (`none`), never a default value;
  * loops are structurally recursive where C's loop obviously terminates, and
    carry fuel where it does not; running out of fuel is a distinct outcome and
    the theorems show how much is enough;
  * allocation failure, failure of a release method, and the behaviour of the
    operating system (short reads, would-block, event reports) are parameters
    (`Oracle`, `Env`, `Answers`, a schedule) over which the theorems quantify
    universally;
  * `size_t` is `Nat` where the code cannot overflow for objects that fit in
    memory, and arithmetic modulo 2^64 where overflow is reachable from
    arguments (bump allocator);
  * `RCPR_MODEL_*` macros (contracts for CBMC) expand to nothing in production
    builds and are not modelled; their preconditions appear as hypotheses.
* The specifications (`SListSpec`, `PsockSpec`, `FiberSpec`, `RBSpec` and the
  definitions at the head of each `Props` file): they say what the English
  claim means. They do not use the definitions of the model, except for the
  types of calls and results.

## What is modelled

| module | source | left out |
|---|---|---|
| `Status` | include/rcpr/status.h, component headers | – |
| `SList`, `DList` | src/slist, src/list | headers of resources, allocator pointers |
| `Queue` | src/queue | – |
| `RBTree`, `RBNode` | src/rbtree | `rbtree_resource_handle`, `rbtree_node_resource_handle`, which are field addresses |
| `MsgPay` | src/message/message_payload.c, on the ledger of `Life` | `message_return_address` (in `MsgHeap`) |
| `Bump` | src/allocator/bump_allocator_create.c | – |
| `Str` | src/string | – |
| `Uuid` | src/uuid | – |
| `Bytes`, `Bigint` | src/bigint, byte swapping | – |
| `Psock*` | src/psock: raw, boxed, buffer, buffered reader, line reading, async wrapper, descriptor reads and writes | name resolution (in `Connect`) |
| `PsockMsg` | accept, setsockopt, socket type, passing descriptors (sendmsg, recvmsg) over descriptor, async, buffered, user and buffer psocks | vtable look-up, addresses, flags and data of messages; the kernel is a queue of messages, a backlog, a table of descriptors and a script of answers; control buffer sizes are those of 64-bit Linux |
| `Vtable` | `vtable_range_valid`, `resource_vtable_read`, `resource_release`, the calls of allocator and psock methods, the forwarding methods of user psocks | what the methods do; memory is read by words; `assert` with NDEBUG does nothing |
| `Malloc` | the malloc allocator behind the allocator API, a client with variables | the check of the vtable; the C library is a parameter that answers with blocks apart from the live ones; both behaviours of `realloc(p, 0)` |
| `Thread` | the life of threads under any interleaving: create, `thread_start`, `thread_release` | creations that fail; fields other than `exit_code` and `running`; `pthread_join` fails only for a thread joined before or a circle of waiting threads |
| `Monitor` | locks, waits and signals under any interleaving, what the library makes of the answers | the semantics of POSIX mutexes and conditions is written down in `step`, not derived; life of the mutexes and conditions (C60, C61); re-acquiring in a wait does not fail |
| `Epoll`, `Poll` | src/psock/platform/{epoll,poll,kqueue} | the kernel, which is a parameter |
| `Trigger` | src/auto_reset_trigger | – |
| `Fds` | src/socket_utilities: setfds, move_descriptors, close_other_fds | socket creation |
| `Disc` | src/fiber/common: disciplines and dispatch | – |
| `Fiber` | src/fiber/common scheduler callbacks, src/message, src/condition | the switch of stacks; trees, queues and lists are abstract here |
| `MsgTree` | the message and condition handlers again, with the trees of `RBTree` in memory | as `Fiber`, except for the trees of mailboxes and barriers |
| `FibMem` | the scheduler, message and condition handlers again, with the run queue, the message queues and the wait lists as the linked lists of `Queue` and `SList` in memory; release of mailboxes, conditions and scheduler | as `Fiber`, except for the queues and lists; trees are maps; reclaiming succeeds; release of the fibers |
| `IoFiber` | the scheduler, requests and the epoll back end together: fibers in `psock_read_block` and `psock_write_block`, the idle fiber, handlers for unexpected events | mailboxes, conditions, management fiber; the wake-ups of the idle fiber find room in the run queue; handlers do not yield |
| `Net` | the loops of `psock_wrap_async_read` and `psock_wrap_async_write` in fibers on top of `IoFiber`, with bounded kernel buffers between connected sockets | programs are functions from results to the next call; no requests, closes or failures; a main fiber whose program ended waits for ever, as one does that waits for management events |
| `NetTalk` | the boxed reads and writes of `Psock` as programs of `Net` | the code of a fiber is run from its beginning with the results of the calls that returned, and cut off where they run out; allocations succeed |
| `Sched` | creation and release of a disciplined scheduler | contents of the objects |
| `Asm` | src/fiber/platform: fiber_make.s, fiber_switch.s (x86-64, System V) and the layout of `struct fiber` | instruction encodings, flags, the x87 and SSE registers themselves |
| `LifeSched` | what a disciplined scheduler owns: discipline and fiber trees, vectors, idle fiber; `get_or_create` of disciplines, the scheduler part of `psock_create_wrap_async`, `fiber_scheduler_add`, removal, release | trees are lists; nodes of the run queue; callbacks; see the head of the file |
| `Life` | constructors and release methods of all components | contents of the objects; see the head of the file |

| `PsockRaw` | `psock_read_raw` with `*data_size` and the caller's buffer, over descriptor, buffer, buffered and async psocks | – |
| `Echo` | examples/echo_server: the loop of the fiber for a connection | output with `printf` |
| `EchoLife` | examples/echo_server: `dispatch`, its context, the loop over accepted connections, the end of a connection, the clean-up by the management fiber, as a ledger | see `EchoMain` |
| `EchoMain` | examples/echo_server: `main`, `manager_fiber_add`, `listen_fiber_add`, `listen_entry`, `signal_thread_create`, and their clean-up labels, as a ledger | what the signals are and when the loop ends (`EchoStop`); the loop is given as a history of connections and the way it ends |
| `EchoStop` | examples/echo_server: `main` from the start of the scheduler to the end of its loop, the management, listen and echo fibers, with the run queue and the requests to all | bytes; failing allocations and reads of the signal; addresses of fibers are not used again; `epoll_wait` reports each waiting fiber at most once |
| `Mandel` | examples/mandelbrot: main.c from line 130 (the frames and the clean-up of the threads) and draw_line.c, as a client of `Monitor` | arithmetic of a pixel (it is the term of what it depends on); reading the configuration; creation of threads, mutex and conditions; failing `malloc`; writing of files |
| `MandelMain` | examples/mandelbrot: `main`, `config_create`, `config_resource_release`, as a ledger: all clean-up labels | failures of the waits and broadcasts in the loop (they hang, item 37); the numbers in the configuration are parameters |
| `MandelFile` | examples/mandelbrot: the count of rounds and the shade of a pixel (draw_line.c), the name and the text of the file of a frame (main.c:196-217) | `long double` arithmetic: for each pixel a parameter says after which rounds the point is inside; `printf` as in the standard; `fopen` and writes that fail |
| `Wrap` | psock_create_wrap_async.c: the new psock, and the flags of descriptors; socket_utility_set_nonblock.c | the scheduler's part (`LifeSched`); `F_SETFL` as in Linux |
| `Control` | the macros of include/rcpr/control.h, and a function of that pattern with any number of operations | what the operations do: they are statuses |
| `PsockDuplex` | psock_br_psock_write.c, and programs that read and write through one buffered reader | the look-up of the table of methods (`Vtable`); that the directions of a socket are independent is an assumption |
| `Connect` | where a psock from a host name or a listen address is connected or listens, with the bytes of the addresses | resolver and network are parameters; layout of addresses as on 64-bit Linux; life of the descriptors (`Life`) |
| `MsgHeap` | message_create.c, message_return_address.c, message_payload.c, the store in message_send.c and the release of mailboxes: the memory of messages beside the mailboxes of `Fiber` | release of payloads (`MsgPay`) |

Not modelled: the kernel; the http server example (its `main` is empty).

`Asm` is a model of the processor: sixteen registers, `mxcsr`, the x87 control
word, byte-addressed memory with mapped pages, and the dozen instructions the two
files use. Its reading of those instructions is part of the trusted base. What it
establishes (a switch resumes a fiber exactly where it switched away, and a new
fiber enters its entry function) is what `Fiber` assumes when it treats a switch as
a change of `cur`.

## Layout

* `Verif/<Component>.lean` – model (definitions with citations).
* `Verif/<Component>Spec.lean` – specification, where it is not short.
* `Verif/<Component>Proof.lean` and similar – lemmas.
* `Verif/Props/<Component>.lean` – the property theorems and the concrete
  cases (`example`) showing that their hypotheses can be met.
* `MANIFEST.json` maps property ids to theorem names.
* `seeded/LOG.jsonl` – wrong programs tried, and which theorems noticed.

A theorem named `…_partial` proves a restriction of the English property; a
theorem named `…_violated` proves, with a concrete witness or for all inputs,
that the code violates the full property.

## How the properties are proved

| id | model | proof |
|----|-------|-------|
| C01, C02 | pointer-level lists | representation invariant (segment predicate) preserved by every operation; refinement to `List` |
| C03 | swap exchanges the headers, the nodes keep their parent | negation by witness; partial: observers agree right after the swap |
| C04 | trace of released and handed-over children | invariant by induction over the history |
| C05, C45 | failure of node reclaim is a parameter | negation by witness; partial: reclaim succeeds |
| C06 | queue on top of the slist model | refinement to `List` |
| C07–C09, C11 | pointer-level tree with sentinel, the control flow of the code with fuel | zipper representation `At`, rotation and fix-up lemmas parametrised over the direction; refinement to a sorted list; negations by eleven calls |
| C10 | swap copies the embedded sentinel but not the pointers to it | partial: both trees alive; negation for every pair once one is released |
| C12 | offset arithmetic mod 2^64 | invariant over the history; negation for wrap-around |
| C13–C18 | byte buffers with bounds-checked access | induction over the buffer |
| C19–C23, C46, C47 | byte-level encoders and decoders over a stream | round-trip laws; invariants of the buffer queue |
| C24–C26, C48–C50 | loops over a schedule of the transport | induction over the schedule |
| C27, C28, C31 | scheduler vectors | invariant over registrations; negations by witness |
| C29, C30, C32–C37, C53, C54, C59 | state machine of a scheduler with all disciplines | refinement of call histories to trace specifications; negations by witness, C34 and C37 for all histories |
| C35, C55 | ledger of allocated objects | all answers of the allocator |
| C38 | trigger state machine | all histories; negation for re-entrant use |
| C39, C51 | descriptor table as a partial map | induction over the argument list; negation for aliasing |
| C40, C52 | event loops of the idle fibers | induction over the list of descriptors; negations by witness |
| C41–C44 | arithmetic, finite tables, case analysis | direct |
| C60–C64 | ledger of acquired things, refusals as parameters | weakest preconditions, one symbolic run per constructor; histories by an invariant that divides the ledger among the releases still owed; for C64 the runs of the release methods in which one answer is a refusal |
| C65–C67 | the same ledger, programs over one scheduler | heap as a sum of what each object owns, one triple per function, invariant over histories; negations by witness |
| C68–C70 | trace specification over views of the descriptor table | one relation per kernel call, lifted through the retry loop, induction over histories; decreasing schedule for termination; negations by witness |
| C71 | the promise of psock.h over a section of tables | case analysis over entry points and builds; negations by witness |
| C72 | regions without addresses, adaptive clients | simulation by induction over the client's history; negation by witness |
| C73 | events of any number of threads, order of releases | invariant over all interleavings; negation by witness |
| C74 | proof outlines thread by thread | soundness: invariant over all interleavings; application to a bounded buffer |
| C75 | wake-ups due and owed | counting invariant over all interleavings; application to a bounded buffer |
| C76 | the documentation of the lock variable | negation by witness |
| C77 | handlers calling the tree functions | invariant: the tree holds the structures that exist; forward simulation into the model with finite maps, for every use of the trees known to be safe; negations by witness |
| C78 | histories of the scheduler with sockets and requests | invariant tying queue entries with socket events to the call and the report that caused them |
| C79 | the same histories, counts of requests sent and told | counting invariant; negations by witness |
| C80 | owners computed from calls and answers as message.h documents them (`MsgOwnSpec`) | invariant: each open mailbox contains exactly what it owns; negations by witness |
| C81 | ownership told from calls and answers (`FibTreeSpec`) | invariant: the tree in memory holds exactly the owned fibers; the loop over the tree is a loop over the sorted list; negations by witness |
| C82 | the same histories as C78, who is inside which call told from the trace (`inside`) | invariant: a waiting fiber is in the run queue or registered and armed (`IoWait`); prefix closure of histories; negations by witness |
| C83 | programs over sockets with one reader and one writer (`NetSpec`) | the results of a fiber depend on the programs only (`NetKahn`: what may be seen next is monotone and determined, as in Kahn networks); simulation of every move by it; the invariants of C78 and C82 for progress; potential for the bound on moves |
| C91 | a conversation of boxed values, and the part of each fiber in it (`NetTalkSpec`) | the code of a fiber makes the calls of its part (round trip of C19 call by call); invariant over what fibers see (C83): each is somewhere in its part; induction over the conversation for progress; the bound of C83 |
| C84 | what a caller is told, computed from its calls and buffers (`Raw.told`) | induction over the calls, contracts of the socket below; negations for all contents |
| C85 | a connection as two streams (`Duplex`), a peer as a list of bursts | invariant over passes; exact result by induction over the bursts; negation for all short messages |
| C86 | ledger of C60 | triples that allow a fault under a condition, invariant over histories; negation by symbolic execution for each refusal |
| C87 | the scheduler over lists (`Fiber`), with an oracle computed from the allocator's answers (`FibMemSpec`) | forward simulation: every list in memory mirrors its abstract one, footprints are disjoint and cover memory |
| C88 | messages told from calls and answers (`sends`, `takes`, `unread`, `dropped`) | the simulation of C87, the invariants of C32 along it, counting; negations by witness |
| C89 | the frames as they should be (`frame`), which fields a point uses (`uses`, `Race`) | invariant over all interleavings, from a relation of single moves; negation by construction |
| C90 | nothing can happen any more (`Stuck`), a bound written out (`most`) | invariant that some thread is engaged while work is left; a measure that every step but a spurious wake-up lowers; negations by construction for every configuration |
| C92 | the order in which `epoll_wait` names sockets and the time of the signal (`Calm`), moves while main waits (`Aside`) | invariant over all moves (where each fiber stands, what it was told, what is open); a measure that every move lowers while a request is answered; negations by witness |
| C93 | a user's loops over the accessors | induction over the tree that the memory represents; negation by the calls of C07 |
| C94 | programs that use messages, on the ledger of C60 | invariant: the list of what each owner owes, up to permutation, is the ledger |
| C95 | `main` on the ledger: what is live when it returns, by the stage it got to | triples, one for each function; a table of what is left at each stage |
| C96 | `main` of the mandelbrot example on the ledger | triples, one for each label and loop |
| C97 | executions without a signal (and without a failure of the listen fiber): the psock is open; once the listen fiber has ended, nothing more is taken | the invariant of C92, one more over the run queue, induction over executions |
| C98 | boxed strings and data of every length over every stream transport | the lemmas of C19; the length modulo 2^32 |
| C99 | a reader of plain PPM files, the shade of a point | the reader is run on the text by lemmas about words and decimals |
| C100 | bits of the flags of open files, which psock was wrapped in a history | cases; induction over histories |
| C101 | traces of the calls of a function, first failure | induction over the operations that succeeded |
| C102 | the reads and the writes of a program, each run alone | simulation, induction over the program |
| C103 | places in the network; first address of a host | cases; bytes of the address read back by the kernel |
| C104 | owners by the answers of the calls; contents by what was given to `message_create` | invariant: the memory is that of the owned messages |
| C56–C58 | x86-64 instructions over byte memory | symbolic execution to a closed form, frame lemmas on disjoint spans, invariant over any interleaving of switches and other code; negation by running `finish` |

## Where the code disagrees with its documentation

Each item names the refuting theorem. Items without a theorem are observations
outside the model.

1. `slist_swap`, `list_swap`: nodes keep pointing at the list they came from, so
   inserting after a node of a swapped list updates the wrong header
   (`slist_swap_violated`, `list_swap_violated`).
2. `slist_pop`, `list_pop` and relatives: the status of the failing reclaim is
   overwritten (`slist_pop_reports_failure_violated`).
3. `slist_clear`, `list_clear` that fail part-way leave the tail pointer on a
   leaked node (`slist_failed_clear_violated`).
4. `rbtree_delete`: the fix-up loop tests `x != nil` where `x != root` is meant
   (rbtree_delete_fixup.c:28), does no rebalancing for a removed leaf, and its
   second branch tests the colour of `x` instead of that of the sibling (line
   69). After eleven calls a tree loses all of three stored values
   (`rbtree_map_violated`, `rbtree_balanced_violated`, `rbtree_walk_violated`,
   `rbtree_clear_violated`). The first delete that takes a black node off a path
   always unbalances the tree (`rbtree_unbalanced_violated`), all others keep it
   balanced (`rbtree_balanced_spare_partial`). As long as a tree holds at most
   four values nothing is lost (`rbtree_map_four_partial`: a finite check of 32
   shapes, carried over to all addresses, keys and histories by showing that the
   functions do not depend on the addresses, `RBRename`, `RBSmall`); with five
   it is (`rbtree_map_five_violated`). With any number of values nothing is lost
   if only the least is deleted (`rbtree_map_first_partial`: black depths never
   decrease from left to right, `RBMin`); deleting only the greatest is not safe
   (`rbtree_map_last_violated`), unless each value was also put in above all
   others (`rbtree_map_stack_partial`: all nodes off the right edge and the next
   to it are black, so the loop never rotates, `RBStack`). The message and condition disciplines
   keep their mailboxes and barriers in such trees: with up to five mailboxes
   an open one can no longer be sent to (`open_found_violated`), and a fiber
   waiting on an open condition can no longer be woken
   (`waiter_found_violated`, C77).
5. `rbtree_swap`: see C10 (`rbtree_swap_release_violated`,
   `rbtree_swap_minimum_violated`).
6. Constructors documented to set the result to NULL on failure leave it alone
   (`null_on_failure_violated`).
7. Bump allocator: sizes near 2^64 wrap the offset (`bump_blocks_violated`).
8. Buffer psock: a read of zero bytes at the end fails, so trailing empty values
   are lost (`boxed_stream_violated`); a failed write leaves bytes that later
   output repeats (`failed_write_corrupts_output`).
9. Buffered reader: loses bytes that come together with end of file, and does
   not wait over an async psock (`br_transparent_violated`,
   `br_does_not_block`); line reading depends on the chunking
   (`read_line_chunking_violated`, `read_line_would_block_violated`).
10. Async write reports the full size after a failure
    (`async_write_size_violated`).
11. Clean-up code tests the wrong status and reports success in
    `psock_br_create_from_psock`, the mailbox and condition create handlers and
    `fiber_scheduler_create_with_disciplines` (`br_create_violated`,
    `create_reports_violated`, `sched_create_reports_violated`); the last one
    also reads freed memory at three failure points
    (`sched_create_undefined_violated`) and never reclaims its context
    (`sched_release_violated`).
12. `fiber_discipline_yield`: `>` instead of `>=` (C28). A failing registration
    leaves the discipline in the tree (C31).
13. Scheduler: a request to a runnable fiber queues it twice
    (`queued_once_violated`) and overwrites its event
    (`resumed_with_answer_violated`). Calls answered at once go to the front of
    the queue, so a third fiber may starve (`overtaking_violated`,
    `pingpong_violated`).
14. Messages: failing sends deliver, failing receives lose the message, closing a
    mailbox or condition strands its waiters (`failed_send_delivers_violated`,
    `failed_receive_loses_violated`, `close_wakes_receiver_violated`,
    `close_wakes_waiters_violated`); event codes of management requests coincide
    with results of sends and closes (`request_taken_for_result_violated`).
15. Trigger: the reset after the callback loses signals made by the callback.
16. `socket_utility_setfds` with a target equal to its source or a later source;
    `close_other_fds` for descriptors from FD_SETSIZE on (C39, C51).
17. epoll: a hang-up or error reported alone wakes nobody, poll: an error or
    invalid descriptor alone (C40); epoll forgets a fiber when a second one
    blocks before the woken one has run (C52). The same with scheduler and
    requests: `no_waiter_lost_violated`, `arming_failure_violated` (C82).
18. `byteswap64` in the shadow models is not an involution
    (`shadow_byteswap64_wrong`); production code is right.
19. `fiber_make.s`, `finish`: `mov 0x1, %rdi` lacks the `$`, so when an entry
    function returns the process reads address 1 and faults instead of exiting
    with status 1 (`finish_violated`).
20. `disciplined_fiber_scheduler_send_quiesce_request_to_all` and its terminate
    twin reach only the fibers that were added; the main fiber and an idle fiber
    that was not added are not told (`request_all_violated`).
21. `stack_release` returns early when `munmap` fails, and `thread_release`
    reclaims the structure of a thread it could not join
    (`fiber_release_violated`, `thread_join_failure_violated`, `destroy_failure_violated`). The release of a
    thread returns the exit code of the thread in the place of its own status.
22. Ownership in the scheduler: `fiber_scheduler_discipline_add` and
    `fiber_scheduler_add` report failure but leave the discipline or fiber in
    the tree, and the callers release it (`discipline_add_failure_violated`,
    `fiber_add_failure_violated`, `discipline_stable_violated`). An idle fiber
    that was added, as fiber.h:837-849 asks, is released twice
    (`idle_added_violated`); an idle fiber that ends or is replaced is never
    released (`idle_exit_violated`, `idle_replaced_violated`). If the idle fiber
    for sockets cannot be created the next call succeeds without one
    (`idle_present_violated`).
23. Descriptor passing: the control buffer of `psock_read_raw_descriptor` has
    room for two descriptors on 64-bit systems; a peer that sends two makes the
    process keep one it does not know of (`two_descriptors_violated`). The
    socket type of a buffered reader is never set, so it refuses descriptors
    (`br_descriptors_violated`). `psock_setsockopt` passes through no wrapper
    (`setsockopt_passes_violated`), and the `setsockopt_fn` of user methods,
    which psock.h:626-629 requires, is never called (`user_methods_violated`).
24. Vtable check: `RCPR_VTABLE_CHECK` compares with `<=` at the upper end, so the
    address just after the section passes and methods are read from whatever
    follows it. Pointers into the middle of a table and tables of another kind
    pass as well. With `RCPR_VTABLE_CHECK_ASSERT`, the default, and NDEBUG the
    check does nothing and the call through the bad pointer goes ahead. The
    methods of `psock_create_from_user_methods` call through the user's table,
    whose address is in the heap object, without any check.
25. `malloc_allocator_reallocate` with size 0: glibc's `realloc` frees the region
    and returns NULL, which is reported as `ERROR_GENERAL_OUT_OF_MEMORY` with
    the variable unchanged; the documented reclaim is then a double free.
26. `thread_release` reclaims the structure of a thread also when `pthread_join`
    fails. A thread that releases itself, or two threads that release each
    other, go on running with a freed structure, into which `thread_start`
    stores the exit code. The documentation says that the release blocks until
    the thread stops (C73).
27. `thread_mutex_lock_acquire` leaves the caller's variable as it was when it
    fails; the documentation says that it is set to NULL. A client that reuses
    a variable then holds a pointer to a lock it does not have (C76).
28. A request to a fiber that the idle fiber has woken and that has not run yet
    puts it into the run queue a second time and replaces its event: the handler
    is told twice of one request (`requests_told_violated`), and if the fiber
    ends in between it is run past its end (`requests_end_violated`). The handler
    called is that of the fiber given to `psock_create_wrap_async`, not of the
    fiber that waits (`requests_need_owner`).
29. `two_owners_violated`: fiber 1 sends a message to a mailbox in which fiber 2
   waits. Fiber 2 runs first, with the message, and sends fiber 1 a quiesce
   request. The request overwrites the answer of the send, so `message_send`
   returns an error to fiber 1, which by message.h:177-179 still owns the
   message that fiber 2 owns. (A terminate request instead has the number of
   the success answer and goes unnoticed, see C53.) `failed_send_shares_violated`
   and `message_lost_violated` are the ownership side of C32.
30. `request_reaches_owned_violated`: the tree of fibers loses fibers like the
   trees of mailboxes (item on C77). With at most five fibers at a time, all
   calls successful, two living fibers are not reached by a quiesce request to
   all, which reports success, and `disciplined_fiber_scheduler_remove_fiber`
   does not find them. `failed_remove_forgets_violated`: if the node cannot be
   reclaimed, removal reports an error, but the fiber is out of the tree.
   `failed_add_keeps_violated`: `fiber_scheduler_add` fails for want of the
   second run queue node and leaves the fiber in the tree and the run queue
   (the TODO in fiber_scheduler_create_with_disciplines.c:870).
31. `read_raw_async_violated`: `psock_wrap_async_read` returns
   `ERROR_PSOCK_READ_EOF` or the error of the socket although it has stored bytes
   before (psock_wrap_async_read.c:98-107); `psock_read_raw` then does not report
   them (psock_read_raw.c:89-92), so they are lost.
   `read_raw_descriptor_violated`: for a descriptor psock, would-block leaves
   `*data_size` as the size of the buffer, so that a caller that trusts it takes
   the whole buffer for data. `read_raw_br_withholds`: a buffered reader answers
   would-block with bytes in its buffer.
32. `echo_violated`: for the same reason the echo server does not send back a last
   message shorter than 1024 bytes if the peer closes its end at once; `echo_exact`
   says which bytes are sent back.
33. `refusal_violated`: `dispatch` creates the context with a NULL psock
   (main.c:313); if the fiber or the wrapper cannot be created, the release of the
   context reads through NULL (469). Otherwise the descriptor is closed by the
   release of the psock or of the context, and `listen_entry` closes it again
   (1090), by when it may belong to another connection. Label `cleanup_sock_async`
   cannot be reached.
34. `failed_send_released_violated`: a send that fails for want of a run queue node
   leaves the message in the mailbox, and closing the mailbox or releasing the
   scheduler releases the message, which by message.h the caller still owns.
   `FibMem.message_lost_violated`: a receiver that was asked to quiesce still
   stands as blocked on its mailbox (`mbox->blocked_fiber` is not cleared); a later
   send hands the message to whatever call the fiber is in by then, reports
   success, and the message is neither received nor ever released.
35. `Mandel.spurious_violated`: main waits for a frame without a loop (main.c:186).
   A wake-up without a signal makes it write a frame that is not complete; in the first
   frame the entries of `info.array` are not even initialised (74).
36. `Mandel.lost_wakeup_violated`: the workers wait before they look whether there is
   work (draw_line.c:44). If main broadcasts (178) before any of them has come to
   its wait, nobody is ever woken; the comment at main.c:119 takes for granted
   that they have.
37. `Mandel.cleanup_hangs_violated`: after a failed broadcast or wait main goes to
   `cleanup_threads` with the lock held and takes it again (262). The label
   `cleanup_lock` cannot be reached. `Mandel.worker_failure_hangs_violated`: a worker whose
   wait fails sets `quiesce` and tells nobody, so that main waits for ever.
38. `EchoStop.released_used_violated`: a request to all puts every running fiber at the end
   of the run queue, also one that is in it. If `epoll_wait` names the signal of the echo
   server before a connection, the fiber of the connection is in the queue twice; it ends
   on the request, the management fiber releases it, and the scheduler resumes it.
   `EchoStop.left_open_violated`: a request to all leaves out fibers that have not been entered.
   If the first signal is there when main reads first (200), the listen fiber is not told to
   quiesce, and a connection taken just before the second is still open at the end.
   `EchoStop.deaf_violated`: if the listening psock cannot be made, or one call of `psock_accept`
   fails, the listen fiber ends (1036-1040, 1066-1070), and main waits for the signal: the process stays up
   without accepting connections.
39. `EchoLife.main_leaks_violated`, `EchoLife.main_sockets_violated`: main of the echo server
   never releases `signal_sock`, and nobody releases the context of the signal thread with its
   psock, so that even an orderly end leaves both ends of the pair open. The listen context
   leaks if a step of main after `listen_fiber_add` fails; `signal_desc` stays open if
   no psock can be made of it.
40. `MandelLife.success_leaves_violated`, `MandelLife.thread_refused_violated`: main of the
   mandelbrot example goes from its last frame to `cleanup_config` (247), so that the threads,
   the mutex with its lock held, the conditions and both arrays are left; the structure of the
   configuration is never reclaimed. After a failed `thread_create` the clean-up
   releases every entry of the array (291), also those that are NULL. The results of
   `strdup`, `fopen` and the `malloc` of a line are not looked at.
41. `long_data_violated`, `long_data_read_violated`: `psock_write_boxed_data` takes a `size_t` and
   sends its low 32 bits (psock_write_boxed_data.c:66); only a model assertion asks for less. The call
   succeeds, the peer reads a shorter value, and its next read begins inside the data.
42. `MandelFile.frame_is_image_violated`: a worker stores a shade as `char` (draw_line.c:102) and main
   prints it with `%u` (main.c:207). Where `char` is signed, a shade above 127 becomes a sample near
   2^32 in a file whose greatest sample is to be 255.
43. `Wrap.wrap_shared_violated`: `socket_utility_set_nonblock` sets a flag of the open file, so that a descriptor that
   shares it (after `dup`, `fork`, or if it was sent) becomes nonblocking too.
44. `Kqueue.kqueue_lost_waiter_violated`: `EV_ADD` replaces the registration of the same descriptor and filter, so a fiber
   that waits to read where another one already does takes its place, and the first is never woken. (With epoll the second
   wait is refused: `epoll_double_block`.) The kqueue files that make and release the context differ from
   the epoll ones in the name of the system call and the error only; `Life` models the latter.
45. `Connect.connect_port_violated`, `Connect.connect_refused_violated`: `psock_create_from_hostname_and_port` passes an
   `unsigned int` to `htons`, so that who asks for port 65617 is connected to port 81, with success. Only the first address
   of a host is tried, and IPv6 only if there is no IPv4 address.
46. `Connect.listen_inet6_violated`: `psock_create_from_listen_address` takes any `sockaddr`, but makes an IPv4 socket, so
   that it fails for every IPv6 address.
47. `MsgHeap.read_freed_violated`: what item 29 means for memory. A sender told to quiesce gets an error from a send
    that was delivered; by message.h the message is then its own to release, and the receiver reads freed memory.
    `MsgHeap.close_leaks_violated`: `slist_clear` stops at the first node whose release fails, so a mailbox that is closed then leaves the messages behind it allocated, with nobody to release them.
48. Observations only. `thread_cond_signal_one` and `thread_cond_signal_all`
    return a bare errno on failure, not a status of the library. A second fiber that calls
    `disciplined_fiber_scheduler_receive_management_event` displaces the first;
    stop and add events are lost while no management fiber waits;
    the poll idle fiber does not retry `EINTR`; the contract of
    `auto_reset_trigger` asserts `NULL == callback`.

## Assumptions of the fiber model

For C87 fibers and messages are not NULL and the allocator hands out unused blocks
at addresses of 64 bits; which blocks, and which requests it refuses, is free.
Fiber addresses are not reused during a history (`Legal`); address counters do
not wrap; reclaiming queue and list nodes succeeds (that queues and lists behave as
sequences is C87); trees of mailboxes,
conditions and fibers behave as maps. For mailboxes and conditions C77, for fibers C81 proves this
for up to four at a time; item 4 shows that it fails with five.
