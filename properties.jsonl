{"id": "C01", "title": "State trie behaves as a key-value map", "statement": "After any sequence of writes to a Merkle-Patricia trie (a write of zero erases the key), reading a key returns exactly the last value written to it, or nothing if it was never written or was last written with zero.", "quantifier": "every sequence of (251-bit or 64-bit key, value) writes and every key read afterwards", "why_tests_cant": "the key space has 2^251 elements and the interesting splits depend on arbitrary common prefixes; a test visits finitely many histories", "anchors": ["crates/merkle-tree/src/tree.rs:set", "crates/merkle-tree/src/tree.rs:delete_leaf", "crates/merkle-tree/src/tree.rs:get"]}
{"id": "C02", "title": "Trie root is history independent", "statement": "The root hash obtained by committing a trie depends only on the final key-value content: two write sequences that leave the same content produce the same root, whatever the order, the overwrites or the deletions in between.", "quantifier": "every pair of write sequences with equal final content", "why_tests_cant": "needs all permutations and all insert/delete interleavings", "anchors": ["crates/merkle-tree/src/tree.rs:set", "crates/merkle-tree/src/tree.rs:delete_leaf", "crates/merkle-tree/src/tree.rs:commit"]}
{"id": "C03", "title": "Erasing a fresh key restores the root", "statement": "Writing a non-zero value to a key that was absent and then erasing it gives back the same root hash and the same content as before; a trie whose keys have all been erased commits to zero.", "quantifier": "every reachable trie, key and value", "why_tests_cant": "quantifies over every reachable trie", "anchors": ["crates/merkle-tree/src/tree.rs:set", "crates/merkle-tree/src/tree.rs:delete_leaf"]}
{"id": "C04", "title": "Trie root commits to the reference definition", "statement": "The committed root of the trie equals the value the Starknet specification assigns to the content: 0 for an empty set of keys, H(left,right) for a branching point, H(child,path)+length for a compressed run of bits, the value itself at a leaf.", "quantifier": "every reachable trie", "why_tests_cant": "compares an incremental algorithm with a recursive definition on all contents", "anchors": ["crates/merkle-tree/src/tree.rs:commit_subtree", "crates/merkle-tree/src/merkle_node.rs:EdgeNode::calculate_hash"]}
{"id": "C05", "title": "Persisted trie reloads to the same trie", "statement": "If the nodes added by a commit are stored and the trie is reopened from the stored root index, every read returns the same value as before the commit, and committing it again without writes returns the same root and reports no change.", "quantifier": "every reachable trie, every storage holding earlier nodes", "why_tests_cant": "requires every tree shape and every mix of loaded and in-memory nodes", "anchors": ["crates/merkle-tree/src/tree.rs:commit", "crates/merkle-tree/src/tree.rs:resolve", "crates/storage/src/connection/trie.rs:insert_trie", "crates/storage/src/connection/trie.rs:trie_node"]}
{"id": "C06", "title": "Incremental and from-scratch updates agree", "statement": "Applying a block's writes to a trie lazily loaded from storage gives the same root as rebuilding the whole content in memory.", "quantifier": "every stored trie and every list of writes", "why_tests_cant": "same", "anchors": ["crates/merkle-tree/src/tree.rs:traverse", "crates/merkle-tree/src/tree.rs:commit_subtree", "crates/merkle-tree/src/contract.rs"]}
{"id": "C07", "title": "Storage proofs are complete", "statement": "For every key, the proof produced for it against the committed root is accepted by the public verification procedure and yields the key's stored value (membership) or shows that the key is absent (non-membership).", "quantifier": "every stored trie and every key", "why_tests_cant": "all tree shapes and all keys, including keys diverging inside an edge", "anchors": ["crates/merkle-tree/src/tree.rs:get_proof"]}
{"id": "C08", "title": "Storage proofs are sound", "statement": "If a list of nodes is accepted by the verification procedure for a root and a key, then the value it shows (or the absence) is the one in the trie with that root, as long as the hash has no collision among the nodes involved.", "quantifier": "every list of nodes offered as a proof, every key and every trie", "why_tests_cant": "quantifies over adversarial proofs", "anchors": ["crates/merkle-tree/src/tree.rs:get_proof", "crates/merkle-tree/src/merkle_node.rs"]}
{"id": "C09", "title": "Equal roots mean equal content", "statement": "Two tries with the same non-zero root hold the same key-value pairs, unless the hash collides.", "quantifier": "every pair of reachable tries", "why_tests_cant": "quantifies over pairs of contents", "anchors": ["crates/merkle-tree/src/tree.rs:commit"]}
{"id": "C10", "title": "Commit reports removed nodes exactly", "statement": "The node indices a commit reports as removed are precisely stored nodes of the previous version that the new version does not reference, and every stored node the new version references was stored by the previous version and is not reported removed.", "quantifier": "every stored trie and every list of writes", "why_tests_cant": "depends on the sharing between two arbitrary trees", "anchors": ["crates/merkle-tree/src/tree.rs:set", "crates/merkle-tree/src/tree.rs:delete_leaf", "crates/merkle-tree/src/tree.rs:commit"]}
{"id": "C100", "title": "The driver of a consensus engine neither loses, repeats nor reorders anything", "statement": "The engine of a height gives its core every command once and in order, and the timeouts that were scheduled, not cancelled and over, never early and not later than the next poll; a poll ends. Its events and its log are exactly what the core asked for, in that order. A decision is in the log before anyone sees it. After a restart the core is given what the log says. The driver does not panic, and waits when there is nothing to do.", "quantifier": "every core, every sequence of commands and polls, every reading of the clock, every choice among timeouts due at the same time, and every log", "why_tests_cant": "Timers, queues and the core call each other: handling a timeout can cancel, reset or schedule others in the same poll; the tests schedule two timeouts and sleep.", "anchors": ["crates/consensus/src/internal.rs: InternalConsensus::poll_internal, recover_from_wal, handle_effect, TimeoutManager", "crates/consensus/src/internal/wal.rs: convert_wal_entry_to_input", "crates/consensus/src/lib.rs: create_consensus, recover_inner", "crates/pathfinder/src/consensus/inner/consensus_task.rs: spawn"]}
{"id": "C101", "title": "Calls, estimates and simulations run what was asked on the state that was asked for", "statement": "A simulation or an estimate runs the transactions of the request, with every field as it was given and the hash and query bit that belong to them, one after the other in their order, each on the state that the one before left, starting from the state after the named block (with what is pending on it for the pre-confirmed block) and told that block's number, time, sequencer, prices and constants. Checks are skipped exactly if asked for; an estimate charges no fee. A call and the estimate for a message run the named entry point with the given data in the same way. An error of a transaction carries its index; what is answered for the first transactions does not depend on later ones; a block that is not there is \"not found\". A block that is there can be used.", "quantifier": "every request, database, pending state and library", "why_tests_cant": "What is run depends on versions of transactions, flags, headers, constants and pending data at once, and a wrong field only shows in a fee or a hash; the tests run a few recorded requests on a mock chain.", "anchors": ["crates/rpc/src/method/simulate_transactions.rs: simulate_transactions", "crates/rpc/src/method/estimate_fee.rs: estimate_fee", "crates/rpc/src/method/estimate_message_fee.rs: estimate_message_fee", "crates/rpc/src/method/call.rs: call", "crates/rpc/src/executor.rs: map_broadcasted_transaction, calldata_limit_exceeded, signature_elem_limit_exceeded", "crates/rpc/src/types.rs: try_into_common", "crates/executor/src/execution_state.rs: create_state_reader, VersionedConstantsMap", "crates/executor/src/types.rs: to_starknet_api_transaction", "crates/executor/src/{simulate,estimate,call}.rs"]}
{"id": "C102", "title": "Upgrading an old database keeps or repairs its event index", "statement": "A database of an older version that is opened by this one is migrated to an index of events that works: every stored block with a wanted event is reported and the pages of a query give its whole answer, right after the upgrade and after whatever blocks, reorgs, prunings, restarts and crashes follow; storing blocks goes on without a panic. Headers and transactions are the same as before. If the filters of an affected Sepolia database say something wrong, the upgrade replaces them by right ones; other databases are not touched.", "quantifier": "every chain of blocks with any events, every old database of it, every damage to the filters from the first affected range on, and every history after the upgrade", "why_tests_cant": "Whether the index is complete after an upgrade depends on where the chain ends relative to the ranges, on what was damaged and on what is stored later; the tests of the migrations use a few small databases.", "anchors": ["crates/storage/src/schema/revision_0066.rs: migrate, migrate_event_filters", "crates/storage/src/schema/revision_0068.rs: migrate", "crates/storage/src/schema/revision_0074.rs: migrate, rebuild_event_filter", "crates/storage/src/connection/event.rs: RunningEventFilter::rebuild, RunningEventFilter::load, upsert_block_event_filters"]}
{"id": "C103", "title": "Upgrading an old database keeps its state, classes and headers", "statement": "A database of an older version that holds a chain says the same after the upgrade as before, and goes on to say what a node that synced the same blocks from scratch says: storage, nonces and contract classes at every block, the block a class was declared in, compiled class hashes, state updates, and the headers with parent hash, gas prices and commitments. This stays true after whatever blocks, reorgs and prunings follow.", "quantifier": "every chain and every old database of it (rows in any order), every history of blocks, reorgs and prunings after the upgrade, every block, contract, key and class", "why_tests_cant": "The migrations rewrite every row; whether a row of some block is lost, doubled or attached to another contract depends on all rows before it. The tests migrate databases of a few rows.", "anchors": ["crates/storage/src/schema/revision_0056.rs: migrate", "crates/storage/src/schema/revision_0059.rs: migrate", "crates/storage/src/schema/revision_0061.rs: migrate", "crates/storage/src/schema/revision_0064.rs: migrate", "crates/storage/src/schema/revision_0072.rs: migrate", "crates/storage/src/schema/revision_0073.rs: migrate", "crates/storage/src/schema/revision_0075.rs: migrate", "crates/storage/src/connection/block.rs: parse_row_as_header"]}
{"id": "C104", "title": "Regrouping transactions on upgrade keeps them all and ends", "statement": "When a database is opened whose transactions are still stored one by one, several threads regroup them by block. Whichever way the threads take turns, the node then reads for every block exactly the transactions, receipts and events it had, in their order, and finds every transaction by its hash where it was; nothing is left out silently; and the migration always comes to an end, with success or with an error.", "quantifier": "every old database, number of threads and batch size, and every interleaving of the main thread and the workers", "why_tests_cant": "The order in which workers take and return blocks differs from run to run; a lost or misplaced block, or threads that wait for each other, show only under some schedules and for some data.", "anchors": ["crates/storage/src/schema/revision_0057.rs: migrate", "crates/storage/src/connection/transaction.rs: transaction_with_receipt, transaction_data_for_block, transaction_hashes_for_block"]}
{"id": "C105", "title": "Transactions and receipts of the gateway are read and written without change", "statement": "A JSON object is accepted as a transaction of the feeder gateway exactly if it states every field of one transaction (old names and fields that may be missing included) and nothing else, and then that transaction with that hash is stored: no field is dropped, confused with another or invented. A block is accepted only if each of its transactions is. A receipt is read in full whatever the order of its fields. What the node serves in the same format is read back as what it stored. A document that is not acceptable gives an error.", "quantifier": "every JSON object with distinct names, all twelve kinds of transactions, every receipt with its events and messages, every order of fields", "why_tests_cant": "The gateway's documents differ by version, age and field order, with aliases, optional fields and two notations of numbers; a test covers some recorded blocks, not every combination of fields and versions.", "anchors": ["crates/gateway-types/src/reply.rs: Transaction, DeclareTransaction, DeployAccountTransaction, InvokeTransaction, Receipt, ExecutionResources", "crates/feeder-gateway/src/main.rs: block", "crates/common/src/receipt.rs"]}
{"id": "C106", "title": "Classes are shown and declared as they are", "statement": "starknet_getClass and starknet_getClassAt show every well-formed stored class: a Sierra class with its program, version, entry points and ABI, a Cairo 0 class with the packed form of its program, its entry points and its ABI. The answer is accepted as the class of a declare transaction and is the same class. For a class in a request, what is hashed, executed or sent to the gateway is that class: nothing of its program, entry points or ABI is lost or changed. A class that is not well formed gives an error.", "quantifier": "every stored class definition and every JSON value in a request, for every way of writing the numbers in it and every order of fields; every program, with every choice of optional fields", "why_tests_cant": "Classes are written by users and by many versions of compilers; a test converts a few fixtures, and cannot show that no field of any program or ABI is dropped.", "anchors": ["crates/rpc/src/types/class.rs: ContractClass::from_serialized_def, CairoContractClass, SierraContractClass, serialize_to_json, class_hash", "crates/rpc/src/dto/class.rs", "crates/rpc/src/method/get_class.rs", "crates/rpc/src/executor.rs: map_broadcasted_transaction", "crates/gateway-types/src/request.rs: CairoContractDefinition, SierraContractDefinition"]}
{"id": "C107", "title": "The reported sync status is true", "statement": "starknet_syncing and /ready/synced always give an answer. The status names the block the node started from, its newest block, and the highest block it knows of; it is false exactly when the node is within five blocks of the highest one. /ready/synced says yes exactly when the node is ready and within that distance, and then starknet_syncing says false.", "quantifier": "every interleaving of the polling of the gateway, the task that writes the highest block, the storing and removing of blocks, and requests; every sequence of heads the gateway gives; every starting database", "why_tests_cant": "The status is written by two tasks and read by two servers while the gateway may go back, be reorganised or lag; a test sets one status and reads it.", "anchors": ["crates/rpc/src/method/syncing.rs: syncing", "crates/rpc/src/types/syncing.rs: Syncing, Status", "crates/pathfinder/src/monitoring.rs: health_route, ready_route, synced_route", "crates/pathfinder/src/state/sync.rs: sync, update_sync_status_latest, consumer, l2_reorg", "crates/pathfinder/src/state/sync/l2.rs: poll_latest"]}
{"id": "C108", "title": "Methods that describe a block agree", "statement": "For every block identifier (number, hash, latest, l1_accepted) either every method says that the block was not found, or all describe the same block: the block with hashes, with transactions and with receipts, the transaction count, the transaction at an index, the receipt by hash and the state update show one header, one L1 status and one list of transactions. blockNumber and blockHashAndNumber name the latest block, the last block accepted on L1 is the one that l1_accepted names, and a block below one that is shown as accepted on L1 is shown so too.", "quantifier": "every history of inserted headers and bodies, late events, removed and pruned blocks and moves of the L1 pointer; every block identifier, index and transaction hash", "why_tests_cant": "The methods read three tables through nine different queries, and hashes are stored apart from the transactions; a test compares two answers on one fixed database.", "anchors": ["crates/rpc/src/method/get_block_with_tx_hashes.rs: get_block_with_tx_hashes", "crates/rpc/src/method/get_block_with_txs.rs: get_block_with_txs", "crates/rpc/src/method/get_block_with_receipts.rs: get_block_with_receipts", "crates/rpc/src/method/get_block_transaction_count.rs: get_block_transaction_count", "crates/rpc/src/method/get_transaction_by_block_id_and_index.rs: get_transaction_by_block_id_and_index", "crates/rpc/src/method/get_transaction_receipt.rs: get_transaction_receipt", "crates/rpc/src/method/get_state_update.rs: get_state_update", "crates/rpc/src/method/last_l1_accepted_block_hash_and_number.rs", "crates/storage/src/connection/block.rs: block_id, block_header, block_number, block_exists, block_is_l1_accepted", "crates/storage/src/connection/transaction.rs: insert_transaction_data, update_events, transaction_hashes_for_block, transaction_data_for_block"]}
{"id": "C109", "title": "An orderly shutdown loses no work and ends in time", "statement": "After SIGTERM, SIGINT or the end of a critical task the process ends within the grace period (and the time to store the index), no database transaction is torn, all tracked work is over before the in-memory index is stored, requests in progress are answered, and the exit status is a failure exactly if the node did not stop because of a signal.", "quantifier": "every set of tasks, every interleaving of their starts, waiting points and ends with the shutdown sequence, every grace period", "why_tests_cant": "What is running at the signal and how long it runs is a matter of schedules; tests of the shutdown start one task and cancel it.", "anchors": ["crates/util/src/task.rs: spawn, spawn_with_cancel, spawn_blocking, tracker::close, tracker::wait", "crates/pathfinder/src/bin/pathfinder/main.rs: main, node_main, handle_critical_task_result", "crates/rpc/src/lib.rs: RpcServer::spawn", "crates/pathfinder/src/state/sync/repair.rs: repair_missing_class_definitions"]}
{"id": "C11", "title": "Trie node encoding round-trips", "statement": "Decoding the stored bytes of a trie node gives back the node that was stored, for all four node kinds and every path length up to 251.", "quantifier": "every node", "why_tests_cant": "unbounded indices, all path lengths and bit patterns", "anchors": ["crates/storage/src/connection/trie.rs:StoredNode::encode", "crates/storage/src/connection/trie.rs:StoredNode::decode"]}
{"id": "C110", "title": "Native execution runs the right code of a class", "statement": "With native execution enabled, the code that is run for a class is always native code compiled from a definition of that class or the CASM code of the definition at hand; a class is compiled at most once while it is in use, is eventually run natively, and the memory used for this is bounded by the configured cache size.", "quantifier": "every interleaving of requests for classes with the compiler thread, every cache size, every behaviour of the compiler", "why_tests_cant": "Whether a request meets a class that is absent, pending, compiled or evicted depends on the schedule of the compiler thread; there are no tests of the cache.", "anchors": ["crates/executor/src/state_reader/native.rs: NativeClassCache::get, compiler_thread, sierra_class_as_native", "crates/executor/src/state_reader.rs: non_cached_compiled_contract_class"]}
{"id": "C111", "title": "Errors are the documented ones and tell what went wrong", "statement": "An error is answered with the code and the form of data that the documents of the requested API version give it; the error of a failed execution shows all calls of the stack from the outermost to the innermost and its text; an error of the gateway for a submitted transaction is answered as the documented error with that meaning; causes of internal errors are not told.", "quantifier": "every error, every stack of frames of any depth, every version of the API, every error of the gateway", "why_tests_cant": "Stacks come in any depth and mix, and each error exists in five versions; tests look at a few stacks and codes.", "anchors": ["crates/rpc/src/error.rs: ApplicationError::code, ApplicationError::data, error_stack_frames_to_json", "crates/executor/src/error_stack.rs: ErrorStack, Frames", "crates/rpc/src/method/add_declare_transaction.rs, add_deploy_account_transaction.rs, add_invoke_transaction.rs: From<SequencerError>", "crates/gateway-types/src/error.rs: KnownStarknetErrorCode", "specs/rpc/v06 to v10: components.errors, CONTRACT_EXECUTION_ERROR, errors of the write methods"]}
{"id": "C112", "title": "A compiled class is shown as it is stored", "statement": "The answer to a request for a compiled class agrees with the stored class in every documented field, has no other fields, and is given for every class in the documented form, with lengths of segments nested to any depth; reading the answer and writing it again changes nothing.", "quantifier": "every stored document, every class, lengths of segments nested to any depth", "why_tests_cant": "Lengths of segments are trees of any depth and classes have any number of entry points; tests look at a few classes.", "anchors": ["crates/common/src/casm_class.rs: CasmContractClass, NestedIntList, CasmContractEntryPoints", "crates/rpc/src/method/get_compiled_casm.rs: get_compiled_casm", "crates/rpc/src/dto.rs: flatten", "specs/rpc/v08 to v10: starknet_executables.json"]}
{"id": "C113", "title": "The operator is told of releases that are newer, and only of those", "statement": "At each poll the operator is told of a new release exactly if the release that was read last from the server has a higher precedence than the version that is running; failed polls, releases that did not change and names that are not versions do not change this; each poll sends the tag of the last release; the running version and older ones are never announced.", "quantifier": "every version of the node, every sequence of responses of the server, every pre-release", "why_tests_cant": "The answer depends on the whole sequence of responses and on the order of all pairs of versions with pre-releases; the test in the repository asks the real server twice.", "anchors": ["crates/pathfinder/src/bin/pathfinder/update.rs: poll_github_for_releases, fetch_latest_github_release", "crates/version/src/lib.rs: VERSION", "crates/version/build.rs: main"]}
{"id": "C114", "title": "A trace taken from the gateway is shown as the gateway gives it", "statement": "For blocks that cannot be run again, the trace of a transaction shows every call at every depth with its data, events, messages and resources as the gateway gives them, each part in the place documented for the kind of transaction, a revert with its reason, and totals that are the sums over the parts; every transaction of a block is answered with its own trace.", "quantifier": "every trace with calls nested to any depth, every kind of transaction, every list of traces and transactions", "why_tests_cant": "Traces are trees of any depth and width; tests compare a few recorded blocks.", "anchors": ["crates/rpc/src/method/trace_block_transactions.rs: map_gateway_trace, map_gateway_function_invocation, map_gateway_computation_resources, trace_block_transactions", "crates/rpc/src/method/trace_transaction.rs: trace_transaction", "crates/gateway-types/src/trace.rs: TransactionTrace, FunctionInvocation", "crates/executor/src/types.rs: FunctionInvocation, ComputationResources"]}
{"id": "C115", "title": "A trace is written so that a client reads from it exactly what was executed", "statement": "The answer of a tracing method has, for every transaction in order, its hash and its trace; in a trace a client finds at every path through the nested calls exactly the call that was made there, and every other part, under the names that the documents of the API version give, and no other field; what is written is as those documents require.", "quantifier": "every API version, every trace with calls nested to any depth, every block, with and without differences of state and initial reads", "why_tests_cant": "Traces are trees of any depth with optional parts, and the form depends on the version; tests compare a few recorded traces for some versions.", "anchors": ["crates/rpc/src/dto/simulation.rs: SerializeForVersion for TransactionTrace, FunctionInvocation, RevertibleFunctionInvocation, ExecutionResources, ComputationResources, StateDiff, InitialReads; DUMMY_REVERTED_FUNCTION_INVOCATION", "crates/rpc/src/dto.rs: SerializeStruct", "crates/rpc/src/method/trace_block_transactions.rs: SerializeForVersion for TraceBlockTransactionsOutput, Trace", "specs/rpc/v06..v10/starknet_trace_api_openrpc.json"]}
{"id": "C116", "title": "The receipt of a transaction that the node executes has all its events and messages, in order, and its status and resources", "statement": "When a validator executes a transaction, the receipt has every event and message of every call that took effect, exactly as often as it was emitted, with the address of the contract that emitted it and in the order of emission; it says that the transaction was reverted, with the reason, if and only if its execution was; and the resources are those that the execution used.", "quantifier": "every kind of transaction, trees of calls of any depth, any events and messages with any numbers, any resources", "why_tests_cant": "The events of several parts, each numbered from its own start, are merged in rounds over trees of any shape; tests compare the receipts of a few recorded blocks.", "anchors": ["crates/executor/src/types.rs: to_receipt_and_events, collect_events_and_messages, collect_items, TransactionExecutionInfo::execution_status, TryFrom<&ExecutionResources>", "crates/executor/src/concurrent_block.rs: ConcurrentBlockExecutor::execute"]}
{"id": "C117", "title": "A proposal that is executed in batches gives the block of its transactions, however it was split", "statement": "After all batches of a proposal were executed and it was cut to the number of transactions that its end names, the block lists exactly these transactions; each has a receipt with its hash and position and the outcome of executing it after those before it, and its events; the state has the changes of exactly these transactions; and how they were split into batches makes no difference. Whatever happens, receipts and events stay with their transactions.", "quantifier": "every sequence of transactions, every split into batches, every number to cut to, every execution as a function of the transactions before, and for alignment every sequence of batches with errors and of rollbacks", "why_tests_cant": "The lists of two objects, with their own counters, must stay in step over any history of batches; tests execute one or two batches of a few transactions.", "anchors": ["crates/validator/src/lib.rs: ValidatorTransactionBatchStage::execute_batch, rollback_to_transaction, consensus_finalize0", "crates/executor/src/concurrent_block.rs: ConcurrentBlockExecutor::execute, close_block", "crates/pathfinder/src/consensus/inner/batch_execution.rs: process_executed_transaction_count"]}
{"id": "C12", "title": "Trie pruning never removes a node a retained root needs", "statement": "With pruning of n blocks of history, after any number of blocks every node reachable from the root of any of the last n+1 blocks is still stored.", "quantifier": "every sequence of block updates and every pruning depth", "why_tests_cant": "needs every interleaving of node removal marks and pruning", "anchors": ["crates/storage/src/connection/trie.rs:prune_trie", "crates/storage/src/connection/trie.rs:insert_trie", "crates/storage/src/connection/trie.rs:remove_trie"]}
{"id": "C13", "title": "Reverting blocks keeps retained tries intact", "statement": "After a chain reorganisation rolls the trie back to an older block, all nodes of the restored root and of the older retained roots are still stored, now and after later pruning.", "quantifier": "every history of block updates, reorganisations and prunings", "why_tests_cant": "combines reorg depth, pruning depth and sharing", "anchors": ["crates/storage/src/connection/trie.rs:coalesce_removed_trie_nodes", "crates/pathfinder/src/state/sync/revert.rs"]}
{"id": "C14", "title": "Root lookup is exact under root pruning", "statement": "Looking up the trie root of a block in the retained window returns the root recorded by the last block at or before it that changed the trie, whether or not old root rows have been pruned.", "quantifier": "every history and every block in the window", "why_tests_cant": "every pattern of changed / unchanged / emptied tries over blocks", "anchors": ["crates/storage/src/connection/trie.rs:insert_class_root", "crates/storage/src/connection/trie.rs:class_root_index", "crates/storage/src/connection/trie.rs:insert_storage_root"]}
{"id": "C15", "title": "Historical reads return the value as of the block", "statement": "storage_value, contract_nonce and contract_class_hash at block n return the value written by the latest state update at or before n, and nothing if there is none.", "quantifier": "every sequence of state updates, every key, every block", "why_tests_cant": "every history", "anchors": ["crates/storage/src/connection/state_update.rs:storage_value", "crates/storage/src/connection/state_update.rs:contract_nonce", "crates/storage/src/connection/state_update.rs:contract_class_hash"]}
{"id": "C16", "title": "Reverse updates undo a range of blocks", "statement": "Applying the reverse updates computed between head and target to the state at head gives exactly the state at target, for storage, nonces and contract classes, including contracts deployed after the target.", "quantifier": "every history, every target below head", "why_tests_cant": "every history and every depth of reorg", "anchors": ["crates/storage/src/connection/state_update.rs:reverse_contract_updates", "crates/storage/src/connection/state_update.rs:reverse_storage_updates", "crates/storage/src/connection/state_update.rs:reverse_nonce_updates"]}
{"id": "C17", "title": "Purging reorged blocks restores the earlier database", "statement": "After the blocks above the target are purged, every read of contract state at any block id gives the answer it gave before those blocks were inserted, and inserting a new fork gives the answers of the new fork only.", "quantifier": "every history and fork", "why_tests_cant": "every fork combination", "anchors": ["crates/storage/src/connection/block.rs:purge_block"]}
{"id": "C18", "title": "Purging reorged blocks restores class compilation hashes", "statement": "After the blocks above the target are purged, the compiled class hash reported for a class at any block is the one of the surviving chain.", "quantifier": "every history and fork that declares or migrates classes", "why_tests_cant": "every fork combination", "anchors": ["crates/storage/src/connection/block.rs:purge_block", "crates/storage/src/connection/class.rs:casm_hash_at", "crates/storage/src/connection/state_update.rs:reverse_sierra_class_updates"]}
{"id": "C19", "title": "Blockchain pruning preserves state at retained blocks", "statement": "After pruning block b, reads of storage, nonce and class hash at every block above b are unchanged.", "quantifier": "every history, every key, every retained block", "why_tests_cant": "every history", "anchors": ["crates/storage/src/pruning.rs:prune_block"]}
{"id": "C20", "title": "Stored state updates read back", "statement": "The state update read back for a block equals the one inserted for it: storage, nonces, deployed and replaced classes, declared and migrated classes.", "quantifier": "every sequence of inserted updates", "why_tests_cant": "all combinations of updates over all earlier histories", "anchors": ["crates/storage/src/connection/state_update.rs:insert_state_update_data0", "crates/storage/src/connection/state_update.rs:state_update"]}
{"id": "C21", "title": "Block bloom filters have no false negatives", "statement": "If a block contains an event that matches an event filter, the block's bloom filter reports the block as possibly matching.", "quantifier": "every set of events and every filter", "why_tests_cant": "hash functions range over all keys", "anchors": ["crates/storage/src/bloom.rs:BloomFilter::set", "crates/storage/src/connection/event.rs:check"]}
{"id": "C22", "title": "Aggregate bloom filters have no false negatives", "statement": "After inserting per-block filters into an aggregate filter, querying it returns every block whose own filter matches; a block inserted with a filter that matches no row combination is not returned because of other blocks.", "quantifier": "every sequence of inserted blocks within the range and every key set", "why_tests_cant": "bit transposition across 8192 blocks and 16384 rows", "anchors": ["crates/storage/src/bloom.rs:AggregateBloom::insert", "crates/storage/src/bloom.rs:AggregateBloom::blocks_for_keys"]}
{"id": "C23", "title": "Event pages concatenate to the exact result", "statement": "On a node that keeps all blocks: following continuation tokens from the first page until none is returned gives every event in the requested range that matches the filter, in chain order, exactly once.", "quantifier": "every chain, filter, page size and scan limit, every history of blocks, reorgs, restarts and cache states, also when blocks are added between pages", "why_tests_cant": "page boundaries fall anywhere: inside blocks, on limits, on filter boundaries", "anchors": ["crates/storage/src/connection/event.rs:events", "crates/storage/src/connection/event.rs:continuation_token"]}
{"id": "C24", "title": "Event paging terminates", "statement": "On a node that keeps all blocks: every page either has no continuation token or has one strictly further in the chain than the position requested.", "quantifier": "every chain, filter, page size and scan limit, every history of blocks, reorgs, restarts and cache states, also when blocks are added between pages", "why_tests_cant": "every position", "anchors": ["crates/storage/src/connection/event.rs:events"]}
{"id": "C25", "title": "Event queries respect the requested range", "statement": "No page contains an event from a block below the requested start or above the requested end, also when old blocks are pruned.", "quantifier": "every chain, filter and pruning setting", "why_tests_cant": "every combination of pruning depth and range", "anchors": ["crates/storage/src/connection/event.rs:events"]}
{"id": "C26", "title": "Pending event pages concatenate exactly", "statement": "Following the tokens over the pre-latest and pre-confirmed blocks yields every matching event of both blocks once and in order.", "quantifier": "every content of the two blocks, every positive page size", "why_tests_cant": "page boundaries anywhere, incl. exactly at the end of the pre-latest block", "anchors": ["crates/rpc/src/method/get_events.rs:get_pending_events", "crates/rpc/src/method/get_events.rs:match_and_fill_events"]}
{"id": "C27", "title": "Event index survives a restart", "statement": "The in-memory event filter rebuilt at start-up (from the persisted running filter plus the missing blocks) answers like the one lost in the crash: it still reports every block with a matching event.", "quantifier": "every crash point in the insertion of blocks", "why_tests_cant": "every crash point", "anchors": ["crates/storage/src/connection/event.rs:RunningEventFilter::load", "crates/storage/src/connection/event.rs:upsert_block_event_filters"]}
{"id": "C28", "title": "Field element byte and hex codecs", "statement": "Encoding a field element as bytes or as a hex string and decoding it gives the same element; decoding accepts exactly the strings denoting numbers below the field prime and rejects all others.", "quantifier": "every field element, every byte string and every text", "why_tests_cant": "2^252 values", "anchors": ["crates/crypto/src/algebra/field/felt.rs"]}
{"id": "C29", "title": "Field addition, subtraction and multiplication are arithmetic modulo the prime", "statement": "For all field elements, the Montgomery limb arithmetic computes addition, subtraction, negation, doubling, multiplication and squaring modulo P with a fully reduced result.", "quantifier": "every pair of elements", "why_tests_cant": "carry chains on 2^504 input pairs", "anchors": ["crates/crypto/src/algebra/field/montfelt/additive.rs", "crates/crypto/src/algebra/field/montfelt/multiplicative.rs", "crates/crypto/src/algebra/field/montfelt/reduce.rs"]}
{"id": "C30", "title": "Field inversion is correct and terminates", "statement": "inverse returns nothing for zero and otherwise the unique element whose product with the input is one.", "quantifier": "every element", "why_tests_cant": "loop count and branches depend on the input", "anchors": ["crates/crypto/src/algebra/field/montfelt/inverse.rs"]}
{"id": "C31", "title": "Square roots are correct and complete", "statement": "sqrt returns a root of its argument when one exists and nothing otherwise.", "quantifier": "every element", "why_tests_cant": "same", "anchors": ["crates/crypto/src/algebra/field/montfelt/sqrt.rs"]}
{"id": "C32", "title": "Streaming and one-shot Poseidon agree", "statement": "Feeding values one by one to the streaming hasher gives the same digest as hashing the list at once; different-length lists are padded differently.", "quantifier": "every list of elements", "why_tests_cant": "every length parity and value", "anchors": ["crates/crypto/src/hash/poseidon/hash.rs"]}
{"id": "C33", "title": "Curve operations implement the group law", "statement": "Point addition, doubling, negation and scalar multiplication on valid curve points return the group-law result and stay on the curve, in affine and projective form.", "quantifier": "every pair of points and every scalar", "why_tests_cant": "quantifies over the curve", "anchors": ["crates/crypto/src/algebra/curve/affine.rs", "crates/crypto/src/algebra/curve/projective.rs"]}
{"id": "C34", "title": "Signatures verify", "statement": "Every signature produced for a message by a secret key is accepted by verification with the matching public key.", "quantifier": "every secret key, message and nonce for which signing succeeds", "why_tests_cant": "2^252-size domains", "anchors": ["crates/crypto/src/signature/ecdsa.rs"]}
{"id": "C35", "title": "Signature verification never crashes", "statement": "Verifying any signature, message and public key returns success or an error; it never panics.", "quantifier": "every 4-tuple of field elements", "why_tests_cant": "attacker-chosen inputs", "anchors": ["crates/crypto/src/signature/ecdsa.rs:ecdsa_verify_inner"]}
{"id": "C36", "title": "State commitment is a pure function of the state", "statement": "The global state commitment computed for a block depends only on contract states, class declarations and the protocol version: not on the order in which updates arrive nor on how they are split between threads.", "quantifier": "every set of updates and every order", "why_tests_cant": "all permutations", "anchors": ["crates/merkle-tree/src/starknet_state.rs:update_starknet_state", "crates/common/src/lib.rs:StateCommitment::calculate"]}
{"id": "C37", "title": "State diff commitment is order independent and complete", "statement": "The state diff commitment and the state diff length depend only on the set of changes, and every kind of change (storage, nonce, deploy/replace, declare, migrate) contributes to them.", "quantifier": "every state update", "why_tests_cant": "all permutations of hash maps", "anchors": ["crates/common/src/state_update.rs"]}
{"id": "C38", "title": "Layered pending state updates read like sequential application", "statement": "Reading storage, nonce, class from two state updates merged with apply gives the same answer as looking in the newer one first and then in the older one.", "quantifier": "every pair of updates and every key", "why_tests_cant": "all combinations of deploy/replace/write", "anchors": ["crates/common/src/state_update.rs:apply"]}
{"id": "C39", "title": "Header chain continuity", "statement": "Headers accepted by the continuity stages form a chain: consecutive numbers, each parent hash equal to the previous hash, linked to the anchor.", "quantifier": "every stream of headers from peers", "why_tests_cant": "adversarial streams", "anchors": ["crates/pathfinder/src/sync/headers.rs"]}
{"id": "C40", "title": "Gap search finds exactly the missing headers", "statement": "The gap returned is the first maximal range of missing headers at or below the search head; none is returned only if nothing is missing.", "quantifier": "every set of stored headers and every head", "why_tests_cant": "every pattern of holes", "anchors": ["crates/pathfinder/src/sync/headers.rs:next_gap", "crates/storage/src/connection/block.rs:next_ancestor_without_parent"]}
{"id": "C41", "title": "Sync pipelines deliver a faithful prefix", "statement": "A pipeline of stages outputs the processed items in order up to the first error, then that error and nothing else; chunking loses and reorders nothing. This holds however the tasks of the stages are scheduled, and no schedule gets stuck or runs for ever.", "quantifier": "every input stream, capacity, stage, channel size and schedule of the tasks", "why_tests_cant": "every position of the error", "anchors": ["crates/pathfinder/src/sync/stream.rs"]}
{"id": "C42", "title": "L2 gas price moves by a bounded amount", "statement": "The next base gas price never falls below the minimum once at or above it, changes by at most 1/48 per block for blocks up to the maximum size, rises only when usage exceeds the target and falls only when it is below.", "quantifier": "every price, usage and protocol version", "why_tests_cant": "u128 domains including overflow fallback", "anchors": ["crates/gas-price/src/l2.rs"]}
{"id": "C43", "title": "L1 gas price samples form one chain and averages are in range", "statement": "The sample buffer always holds consecutive linked L1 blocks, at most the configured number, and the average returned lies between the smallest and largest sample used.", "quantifier": "every sequence of samples and timestamps", "why_tests_cant": "every sequence", "anchors": ["crates/gas-price/src/l1.rs"]}
{"id": "C44", "title": "Consensus log recovery", "statement": "After a crash at any point, recovery reads back exactly the entries whose writes completed, classifies a height as finished if it has a decision or was committed, and never loses a decision.", "quantifier": "every log content and crash point", "why_tests_cant": "every crash point", "anchors": ["crates/consensus/src/wal.rs"]}
{"id": "C45", "title": "Protocol version ordering and encoding", "statement": "Parsing a printed protocol version gives the same version, the integer encoding is reversible, and comparison is lexicographic.", "quantifier": "every version", "why_tests_cant": "2^32 versions", "anchors": ["crates/common/src/lib.rs:StarknetVersion"]}
{"id": "C46", "title": "Blocks shown as accepted on L1 are those that L1 accepted", "statement": "After any sequence of new blocks, L1 state updates, reorganisations, pruning and restarts, every stored block that is shown as accepted on L1 is, or is an ancestor of, a block that L1 announced; the last accepted block is stored and not above the head; and a stored block that L1 announced is shown as accepted until it is taken back.", "quantifier": "every sequence of events and restarts, with or without pruning", "why_tests_cant": "The order of announcements, blocks, reorgs and restarts is arbitrary; tests announce blocks that are already stored.", "anchors": ["crates/pathfinder/src/state/sync.rs: consumer, l1_update, l2_update, l2_reorg, perform_blockchain_pruning", "crates/storage/src/connection/reference.rs", "crates/storage/src/connection/ethereum.rs", "crates/storage/src/connection/block.rs: block_is_l1_accepted", "crates/pathfinder/src/sync/checkpoint.rs: persist_anchor"]}
{"id": "C47", "title": "Blockchain pruning preserves state updates of retained blocks", "statement": "After pruning old blocks, the state update returned for every block that is still stored is the one that was inserted for it.", "quantifier": "every history of blocks, reorgs and pruning runs, every retained block", "why_tests_cant": "depends on which earlier rows the pruning removed; all histories", "anchors": ["crates/storage/src/connection/pruning.rs:prune_block", "crates/storage/src/connection/state_update.rs:state_update"]}
{"id": "C48", "title": "Event queries during block insertion", "statement": "An event query that reads the database while another connection is storing a block returns exactly the matching events of the chain it sees.", "quantifier": "every chain, filter, page and block being stored", "why_tests_cant": "depends on the interleaving of the reader with the in-memory index update and the commit", "anchors": ["crates/storage/src/connection/event.rs:upsert_block_event_filters", "crates/storage/src/connection/event.rs:events"]}
{"id": "C49", "title": "starknet_getEvents over stored and pending blocks", "statement": "Following the tokens of starknet_getEvents yields exactly the matching events of the requested block range, stored and pending, in order, also if pending blocks are stored or extended between the pages.", "quantifier": "every chain, pending data, request range, filter and page size, every sequence of moments of a growing node", "why_tests_cant": "pages interleave with the growth of the chain; all ranges and splits between stored and pending blocks", "anchors": ["crates/rpc/src/method/get_events.rs:get_events", "crates/rpc/src/method/get_events.rs:get_pending_events", "crates/rpc/src/pending.rs:PendingWatcher::get"]}
{"id": "C50", "title": "Continuation tokens survive the string form", "statement": "A continuation token that is returned as a string and sent back denotes the same position; different positions have different strings; no accepted string denotes a position out of bounds.", "quantifier": "every position, every string", "why_tests_cant": "all numbers and all strings", "anchors": ["crates/rpc/src/method/get_events.rs:ContinuationToken"]}
{"id": "C51", "title": "Verification accepts exactly the valid signatures", "statement": "Verification with the first coordinate of a public key accepts a message and a signature if and only if they are within the bounds and valid by the textbook definition of ECDSA.", "quantifier": "every public key, message and signature", "why_tests_cant": "adversarial inputs over 2^252-size domains", "anchors": ["crates/crypto/src/signature/ecdsa.rs:ecdsa_verify_partial", "crates/crypto/src/algebra/curve/projective.rs:add"]}
{"id": "C52", "title": "Pedersen hash equals its definition", "statement": "The Pedersen hash of two field elements is the first coordinate of the sum of the shift point and the four base points multiplied by the low 248 and the high 4 bits of the two elements, and it never panics.", "quantifier": "every pair of field elements", "why_tests_cant": "the windowed implementation uses 7905 precomputed points; tests touch a few windows", "anchors": ["crates/crypto/src/hash/pedersen/mod.rs", "crates/crypto/src/hash/pedersen/gen_mul.rs", "crates/crypto/src/algebra/curve/consts.rs"]}
{"id": "C53", "title": "A merged batch has the commitment of its last block", "statement": "Checkpoint sync applies the state updates of a batch of blocks as one merged update. The commitments that result are those of applying the updates block by block.", "quantifier": "every history, every non-empty batch of updates", "why_tests_cant": "the effect of merging depends on how the updates of a batch overlap", "anchors": ["crates/pathfinder/src/sync/state_updates.rs:merge_state_updates", "crates/pathfinder/src/sync/state_updates.rs:batch_update_starknet_state"]}
{"id": "C54", "title": "Heights are settled in order", "statement": "A height is reported as finalised only if it was decided here or its block is committed; the engine and the log of a height that is not settled are never dropped; engines kept after a decision lie within the history depth.", "quantifier": "every order of messages, log writes, decisions, polls, commits and restarts", "why_tests_cant": "every schedule and restart point", "anchors": ["crates/consensus/src/lib.rs: Consensus::next_event, prune_old_engines, is_height_finalized", "crates/pathfinder/src/consensus/inner/consensus_task.rs"]}
{"id": "C55", "title": "Messages that still matter are not ignored", "statement": "A consensus message is ignored as outdated only if its height is more than the history depth below a block that is decided or committed.", "quantifier": "every history of proposals, decisions and commits, every height", "why_tests_cant": "every set of messages peers may have sent before", "anchors": ["crates/pathfinder/src/consensus/inner/p2p_task.rs: is_outdated_p2p_event"]}
{"id": "C56", "title": "Proposal streams are put back in order", "statement": "However the messages of a proposal stream are reordered, duplicated and interleaved with other streams, the receiver gets the parts in the order in which they were sent, each once, and all of them once all messages have arrived.", "quantifier": "every list of parts, every arrival order with duplicates, every set of other streams", "why_tests_cant": "all permutations and interleavings", "anchors": ["crates/p2p/src/consensus.rs: handle_incoming_proposal_message", "crates/p2p/src/consensus/stream.rs"]}
{"id": "C57", "title": "A retried proposal arrives", "statement": "A proposal that is gossiped again after a failed attempt is received as if it had been gossiped once.", "quantifier": "every proposal, every point at which the first attempt fails", "why_tests_cant": "every point of failure", "anchors": ["crates/pathfinder/src/consensus/inner/gossip_retry.rs", "crates/p2p/src/consensus.rs: create_outgoing_proposal_message"]}
{"id": "C58", "title": "Only ordered proposals are accepted", "statement": "The parts accepted for a proposal are block info, then transaction batches that are not empty, then one closing part; nothing is accepted after that. Block info and closing part alone are an empty proposal.", "quantifier": "every sequence of parts", "why_tests_cant": "all sequences", "anchors": ["crates/pathfinder/src/consensus/inner/proposal_validator.rs: ProposalPartsValidator"]}
{"id": "C59", "title": "Deferred proposals end as they would have at once", "statement": "Whether the parent block is decided before, while or after the parts of a proposal arrive, the proposal is accepted under the same conditions, reported once with the same commitment and leads to the same block; a bad proposal is skipped.", "quantifier": "every proposal, every point at which the parent is decided and the task hears of it, every state left by earlier proposals", "why_tests_cant": "every interleaving of parts and decisions", "anchors": ["crates/pathfinder/src/consensus/inner/p2p_task.rs: handle_incoming_proposal_part, defer_or_execute_proposal_fin, execute_deferred_for_next_height", "crates/pathfinder/src/consensus/inner/batch_execution.rs", "crates/validator/src/lib.rs: should_defer_validation"]}
{"id": "C60", "title": "No peer can stop the node", "statement": "No message or sequence of messages from peers makes the consensus task of a node panic or end.", "quantifier": "every sequence of messages and decisions", "why_tests_cant": "adversarial input", "anchors": ["crates/p2p/src/consensus.rs", "crates/pathfinder/src/consensus/inner/p2p_task.rs", "crates/validator/src/lib.rs: validate_block_info_timestamp", "crates/pathfinder/src/bin/pathfinder/main.rs: handle_critical_task_result"]}
{"id": "C61", "title": "The block that is stored is the block that was agreed on", "statement": "The block kept for a height and round was executed from checked block info, has the number of that height, has the commitment that was reported to the engine, and comes with exactly the classes its transactions declare.", "quantifier": "every sequence of parts and decisions", "why_tests_cant": "adversarial input, every interleaving", "anchors": ["crates/pathfinder/src/consensus/inner/p2p_task.rs", "crates/validator/src/lib.rs: consensus_finalize, rollback_to_transaction"]}
{"id": "C62", "title": "Headers up to an L1 checkpoint are those of the L1 chain", "statement": "Whatever peers send and wherever runs stop, every stored header with a number up to a block L1 reported is the header of the chain L1 reports; when a run ends its header phase all of them are stored, once each; and if peers deliver the headers of a gap the gap is filled.", "quantifier": "every history of runs, crashes, peer streams and checkpoints of one chain", "why_tests_cant": "adversarial streams in all histories", "anchors": ["crates/pathfinder/src/sync/checkpoint.rs:run", "crates/pathfinder/src/sync/checkpoint.rs:handle_header_stream", "crates/pathfinder/src/sync/headers.rs:next_gap"]}
{"id": "C63", "title": "After a checkpoint run the stored headers form one chain", "statement": "When the header phase of a run is over, every stored header above genesis has its parent stored below it, so the node goes on tracking the chain that contains the checkpoint.", "quantifier": "every history of runs, crashes, peer streams and checkpoints of one chain", "why_tests_cant": "needs particular histories of forks and restarts", "anchors": ["crates/pathfinder/src/sync/checkpoint.rs:CheckpointAnalysis", "crates/pathfinder/src/sync/checkpoint.rs:rollback_to_anchor", "crates/pathfinder/src/sync/checkpoint.rs:run"]}
{"id": "C64", "title": "Block data requested from peers arrives complete, in order and from one peer per block", "statement": "Whatever peers reply, a stream of headers, transactions, state diffs, classes or events delivers the requested blocks in order, each once, each read from consecutive responses of one peer with exactly the expected number of items; it ends after the last block or with an error, and a peer that has the missing blocks completes it. No reply makes it end early without an error or makes it hold more data than expected.", "quantifier": "every sequence of peers, failures and responses and every list of expected counts", "why_tests_cant": "adversarial peers and all ways to cut and mix their replies", "anchors": ["crates/p2p/src/sync/client/peer_agnostic.rs:header_stream", "crates/p2p/src/sync/client/peer_agnostic.rs:transaction_stream", "crates/p2p/src/sync/client/peer_agnostic.rs:state_diff_stream", "crates/p2p/src/sync/client/peer_agnostic.rs:class_definition_stream", "crates/p2p/src/sync/client/peer_agnostic.rs:event_stream", "crates/pathfinder/src/sync/storage_adapters.rs:counts_stream"]}
{"id": "C65", "title": "A block hash stands for one header", "statement": "Two headers of a chain that pass the block hash check with the same hash agree in every field that the hash rules of their version cover, unless the hash functions collide on the values hashed for them; nothing else decides the check, and a header with the hash of its values passes.", "quantifier": "every pair of headers, every chain, every hash function", "why_tests_cant": "the space of headers; collisions of encodings (packed counters, version text, number ranges) across the hash rules of different versions", "anchors": ["crates/block-commitments/src/lib.rs:verify_block_hash", "crates/block-commitments/src/lib.rs:compute_final_hash"]}
{"id": "C66", "title": "Commitments stand for their lists", "statement": "Transactions, events or receipts with the same commitment are the same, in the same order, in everything a client can read of them, unless the hash functions collide (or hit zero) on inputs from these lists; a commitment is the root of the Merkle-Patricia tree of the item hashes at their positions.", "quantifier": "every pair of lists of any length below 2^64, every pair of versions, every hash function", "why_tests_cant": "all pairs of lists; ambiguities of the encodings of lists within lists", "anchors": ["crates/block-commitments/src/lib.rs:calculate_transaction_commitment", "crates/block-commitments/src/lib.rs:calculate_receipt_commitment", "crates/block-commitments/src/lib.rs:calculate_event_commitment"]}
{"id": "C67", "title": "A block taken from the gateway is the one its hash stands for", "statement": "Two gateway blocks accepted for the same hash have the same transactions, receipts, events, state diff commitment and header, unless the hash functions fail on inputs from these blocks; the commitments that are stored are those of the contents by the current rules; a genuine block is accepted, with or without precomputed commitments.", "quantifier": "every pair of gateway replies, every chain and version", "why_tests_cant": "all replies of a faulty or malicious gateway", "anchors": ["crates/pathfinder/src/state/sync/l2.rs:verify_gateway_block_commitments_and_hash", "crates/block-commitments/src/lib.rs:verify_block_hash"]}
{"id": "C68", "title": "A transaction hash stands for one transaction", "statement": "Two transactions with the same hash are of the same kind and version, of the same chain, both queries or both not, and equal in every field but the signature (and the few fields that the protocol leaves out of the hash), unless the hash functions collide on values hashed for the two. The same holds of two transactions that pass the check of a given hash, and of two that are taken from peers for it; and what the node would accept from the gateway it accepts from peers.", "quantifier": "every two transactions of all twelve kinds, every chain id, every hash function", "why_tests_cant": "Two transactions that share a hash form a pair out of an unbounded space of lists and numbers; a test compares the hash of a few known transactions.", "anchors": ["crates/common/src/transaction.rs: verify_hash, calculate_hash, calculate_contract_address, LegacyHasher, PreV3Hasher, V3Hasher", "crates/pathfinder/src/sync/transactions.rs: CalculateHashes", "crates/pathfinder/src/state/sync/l2.rs: download_block"]}
{"id": "C69", "title": "A block body is read as it was stored", "statement": "The transactions, receipts and events stored for a block are what is then read of it, by number, by position, as data, as hashes or as events; the other blocks read as before. A hash finds exactly the transaction that reading its block shows at that place, with its receipt and events, and no hash is that of two. After a block is reverted nothing of it is read.", "quantifier": "every history of headers, bodies with or without events, later events, reverts and restarts; every block, position and hash", "why_tests_cant": "The tables are related by keys and positions over an unbounded history; a test stores a few blocks and reads them back.", "anchors": ["crates/storage/src/connection/transaction.rs: insert_transaction_data, update_events, transaction, transaction_with_receipt, transaction_at_block, transaction_data_for_block, events_for_block, transaction_hashes_for_block", "crates/storage/src/connection/block.rs: purge_block"]}
{"id": "C70", "title": "A block body from peers reads as its header commits", "statement": "Once a block from peers is stored, what is read of it is transactions and events to which its header commits, with each event at its transaction, and receipts to which the header commits; so two nodes with the same header read the same, whichever peers served them, unless the hash functions collide.", "quantifier": "every header, every answer of every peer, every database, every hash function", "why_tests_cant": "Peers may send anything, and the commitment fixes a list only up to hashing; a test sends well-formed answers with every event at a transaction that has some.", "anchors": ["crates/pathfinder/src/sync/transactions.rs: VerifyCommitment, Store", "crates/pathfinder/src/sync/events.rs: verify_commitment, persist, VerifyCommitment", "crates/pathfinder/src/sync/track.rs: TransactionSource, EventSource, StoreBlock", "crates/pathfinder/src/sync/checkpoint.rs: handle_transaction_stream, handle_event_stream"]}
{"id": "C71", "title": "Interrupted syncing of bodies resumes", "statement": "After any number of interruptions, at any block, the next run of the sync of transactions and events up to the checkpoint starts at the first block that misses them and stores all that are missing.", "quantifier": "every chain of blocks, every number and place of interruptions and restarts", "why_tests_cant": "The place of the crash and the chain are arbitrary; a test resumes once over a chain where every block has transactions.", "anchors": ["crates/pathfinder/src/sync/checkpoint.rs: sync_transactions, sync_events", "crates/pathfinder/src/sync/transactions.rs: next_missing", "crates/pathfinder/src/sync/events.rs: next_missing", "crates/storage/src/connection/block.rs: first_block_without_transactions", "crates/storage/src/connection/event.rs: next_block_without_events, RunningEventFilter::load"]}
{"id": "C72", "title": "L1 state updates are passed on once final", "statement": "The L1 client passes on the state update of every finalized L1 block that has one, each once and in order of the L1 blocks, and passes on no update that was removed from L1.", "quantifier": "every sequence of logs, removals and finalized blocks, every loss of the connection", "why_tests_cant": "Ethereum reorganises and connections fail at any time; a test plays one sequence.", "anchors": ["crates/ethereum/src/lib.rs: sync_and_listen"]}
{"id": "C73", "title": "Following the gateway keeps one linked chain", "statement": "Whatever the gateway answers, in whatever order downloads end and tasks run and are started again, the stored blocks are one chain from block 0 in which each block names the one before as its parent, the consumer of events does not stop, and a reorganisation goes back to the highest block in common.", "quantifier": "every history of the gateway, every completion order of downloads, every interleaving of producer and consumer, every restart", "why_tests_cant": "Producer and consumer run apart with a channel between them, and failures may come at any moment; tests run one of them at a time.", "anchors": ["crates/pathfinder/src/state/sync/l2.rs: sync, consensus_sync, download_block, bulk_sync, reorg, BlockChain", "crates/pathfinder/src/state/sync.rs: sync, consumer, l2_reorg, latest_n_blocks"]}
{"id": "C74", "title": "Notifications tell exactly what changed", "statement": "Subscribers who apply the notifications of new blocks and reorgs in order always have the stored chain: a notification is sent for every change and only for changes that are committed, and a reorg names exactly the blocks taken back.", "quantifier": "every sequence of events, every failure of the database", "why_tests_cant": "Consistency holds over a whole history and under failures of the commit; tests look at single notifications.", "anchors": ["crates/pathfinder/src/state/sync.rs: consumer, l2_reorg, send_notification"]}
{"id": "C75", "title": "A class hash stands for one class", "statement": "Two classes with the same class hash are the same class: the same kind, ABI, entry points and program, up to parts that the hash is meant to leave out; the hash of a class from a peer is that of the class from the gateway; and the hash of a Cairo 0 class is the one the network gives it.", "quantifier": "every two classes, Cairo 0 or Sierra, with any ABI, attributes, identifiers and text in any script", "why_tests_cant": "Injectivity ranges over all pairs of JSON documents; tests hash some known classes, all of them ASCII.", "anchors": ["crates/class-hash/src/lib.rs: compute_class_hash, compute_cairo_class_hash, compute_sierra_class_hash, prepare_json_contract_definition, PythonDefaultFormatter, json::CairoProgram, from_parts"]}
{"id": "C76", "title": "A proposal is executed on the state its parent leaves", "statement": "While blocks that consensus has decided are not yet in the database, executing a proposal on top of block n reads for every slot, nonce, contract class and compiled class hash what the last block up to n that sets it sets, and knows exactly the classes declared up to n; and the block a proposal becomes says about classes what its transactions did.", "quantifier": "every chain, every split of it into committed and decided blocks, every interleaving of deciding, committing, confirming and executing, every proposal with any batches and rollbacks", "why_tests_cant": "The reads depend on how far the database lags behind consensus at the moment the executor is created, and on which parts of a contract each decided block touches.", "anchors": ["crates/executor/src/state_reader/storage_adapter/concurrent.rs: decided, rev_blocks_by_id, find_contract_update", "crates/executor/src/state_reader.rs: get_storage_at, get_nonce_at, get_class_hash_at, get_compiled_class_hash", "crates/validator/src/lib.rs: execute_batch, rollback_to_transaction, consensus_finalize0", "crates/executor/src/concurrent_block.rs: convert_commitment_state_diff", "crates/pathfinder/src/consensus/inner/p2p_task.rs: remove_decided_block"]}
{"id": "C77", "title": "The class cache does not change what is executed", "statement": "An execution gets with the process wide cache of compiled classes the class it would get without it, whatever was looked up, stored, decided, evicted or reorganised before, so that a class is known from the block that declares it on and not before.", "quantifier": "every history of stored blocks, definitions, evictions, lookups at any block by RPC and by consensus, and reorganisations; every class and every block read", "why_tests_cant": "Whether a stale entry is served depends on the whole history of the process.", "anchors": ["crates/executor/src/lru_cache.rs: LruContractCache, GLOBAL_CACHE", "crates/executor/src/state_reader.rs: get_compiled_class, non_cached_compiled_contract_class", "crates/pathfinder/src/state/sync.rs: l2_reorg"]}
{"id": "C78", "title": "Classes are there from the block that introduces them on", "statement": "When the node follows the gateway, a class can be read at exactly the blocks from the first one on that declares it or deploys a contract with it, the class of a contract can be read at every block, the class served has the hash asked for, a stored class never changes, and Sierra classes come with their compiled class; through restarts, failed downloads, reorganisations and blocks downloaded ahead.", "quantifier": "every history of downloads, failures, restarts, reorganisations and stored blocks, every answer of the gateway, every class, contract and block read", "why_tests_cant": "Which classes are downloaded depends on what was stored when the block was looked at, and what arrives depends on where the tasks stop.", "anchors": ["crates/pathfinder/src/state/sync/class.rs: download_class", "crates/pathfinder/src/state/sync/l2.rs: download_new_classes, emit_events_for_downloaded_classes", "crates/pathfinder/src/state/sync.rs: consumer, l2_reorg", "crates/pathfinder/src/state/sync/repair.rs", "crates/storage/src/connection/class.rs", "crates/rpc/src/method/get_class.rs", "crates/rpc/src/method/get_class_at.rs", "crates/rpc/src/method/get_compiled_casm.rs"]}
{"id": "C79", "title": "Class definitions from peers are checked, complete and blamed rightly", "statement": "When class definitions come from peers, a definition is stored only if it parses, has the declared hash and belongs to a class declared in a block of the requested range; whatever fails and wherever the process stops, the tables stay what storing and removing blocks can lead to; a run that ends without an error leaves no class of the range without a definition; peers that answer rightly are never blamed, blamed peers did not; and a definition sent by a node is read by another as it was.", "quantifier": "every sequence of answers of peers, every failure of a query, every crash point, every history of the database, every class", "why_tests_cant": "Which definitions arrive, in what order and where the streams end depends on peers and on the schedule.", "anchors": ["crates/pathfinder/src/sync/class_definitions.rs: verify_layout, verify_hash, verify_declared_at, expected_declarations_stream, compile_sierra_to_casm_or_fetch, persist, VerifyClassHashes", "crates/pathfinder/src/sync/checkpoint.rs: sync_class_definitions, handle_class_stream", "crates/p2p/src/sync/client/conv.rs: SerializedCairoDefinition, SerializedSierraDefinition", "crates/p2p/src/sync/client/peer_agnostic.rs: class_stream, class_definitions_for_block", "crates/pathfinder/src/p2p_network/sync/sync_handlers.rs: get_classes_for_block"]}
{"id": "C80", "title": "Fee estimates and simulations find an L2 gas limit that suffices", "statement": "When a transaction is estimated or simulated, the search for an L2 gas limit ends after at most 65 attempts whatever the transaction does; with the limit that is reported the transaction does not run out of gas; the limit is what the transaction uses plus the configured percentage, or else at most 500 000 above one that does not suffice; each transaction affects the state of those after it as one run would, and the result is that of a run that its sender could get; a transaction that runs with its own limit gets an answer.", "quantifier": "every behaviour of a transaction as a function of its gas limit, every percentage, balance and price, every list of transactions", "why_tests_cant": "How a contract reacts to gas limits is arbitrary; a test has the few contracts it deploys.", "anchors": ["crates/executor/src/transaction.rs: find_l2_gas_limit_and_execute_transaction, simulate_transaction, execute_transaction, midpoint, search_done, get_max_l2_gas_amount_covered_by_balance", "crates/executor/src/estimate.rs: estimate", "crates/executor/src/simulate.rs: simulate", "crates/executor/src/types.rs: FeeEstimate", "crates/util/src/percentage.rs"]}
{"id": "C81", "title": "Traces are those of the block asked for, whatever calls overlap", "statement": "Calls that trace a block at the same time share one run. Every answer is what running that block with those flags ends with; no call waits in vain; a call is told that the run it waited for failed only if it did; while nothing is lost from the cache a block is run by one call at a time; a failed run does not keep later calls from an answer; a block is run on the state that the blocks before it left.", "quantifier": "every number of calls, every interleaving of them, every loss of cache entries, every block", "why_tests_cant": "Which calls overlap and when a run fails depends on the schedule.", "anchors": ["crates/executor/src/simulate.rs: trace, TraceCache", "crates/rpc/src/method/trace_block_transactions.rs: trace_block_transactions", "crates/rpc/src/method/trace_transaction.rs: trace_transaction", "crates/executor/src/execution_state.rs: ExecutionState::trace, create_state_reader"]}
{"id": "C82", "title": "A subscription sends every message it owes, in order and once", "statement": "A websocket client that subscribes to new heads or events from an old block gets the messages of every block from there on, in chain order, each once, without waiting for unrelated blocks; when blocks are taken back it is told so before it gets those that replace them; it gets messages of stored blocks only; events of old and of new blocks are filtered alike.", "quantifier": "every chain, every interleaving of the sync task with the catch-up and the opening of the subscription, every batch size, every filter and event", "why_tests_cant": "Whether a block falls between two reads, or between a read and the opening of a channel, depends on the schedule.", "anchors": ["crates/rpc/src/jsonrpc/router/subscription.rs: RpcSubscriptionEndpoint::invoke", "crates/rpc/src/method/subscribe_new_heads.rs: catch_up, subscribe", "crates/rpc/src/method/subscribe_events.rs: catch_up, subscribe, Params::matches", "crates/storage/src/connection/event.rs: events_in_range", "crates/pathfinder/src/state/sync.rs: consumer, send_notification"]}
{"id": "C83", "title": "Transaction status updates progress, are true and arrive", "statement": "A client that subscribes to the status of a transaction gets statuses that only progress until a reorg notice; each was true of the transaction at some point up to then; and if the transaction is on the chain and the program has caught up, the client was told that it is accepted.", "quantifier": "every history of commits, reorgs, announcements, pending data, L1 updates and submissions, interleaved in every way with the subscription", "why_tests_cant": "Whether a block falls between reading the database and opening the channel depends on the schedule.", "anchors": ["crates/rpc/src/method/subscribe_transaction_status.rs: subscribe, current_known_tx_status, pending_data_tx_status, Sender::send_and_update", "crates/pathfinder/src/state/sync.rs: send_notification"]}
{"id": "C84", "title": "New transactions are reported once for each stage", "statement": "A client that subscribes to new transactions or receipts gets each transaction of the pre-confirmed and pre-latest blocks once for each stage it asked for, as soon as the program sees it, and each transaction of an announced block once as accepted on L2, after its earlier stages.", "quantifier": "every sequence of pending data, announced blocks and reorgs, every filter", "why_tests_cant": "The updates already sent are kept per block over the whole life of the subscription; what is sent depends on the history.", "anchors": ["crates/rpc/src/method/subscribe_new_transactions.rs: subscribe, send_tx_updates", "crates/rpc/src/method/subscribe_new_transaction_receipts.rs: subscribe, send_tx_receipt_updates", "crates/rpc/src/method/subscribe_events.rs: send_event_updates"]}
{"id": "C85", "title": "Queries with the tag pre_confirmed see the chain with the pending blocks on top", "statement": "Asked with the tag pre_confirmed, the node answers nonce, storage value, block of the last update and class of a contract as they are after the blocks of the chain and then the pending blocks (pre-latest, pre-confirmed) that continue it. A transaction of a pending block is answered with its own receipt, status and block; one that is not executed yet is a candidate; every other one is answered from the chain. Data that does not continue the chain is not shown, and interface versions before 0.9 see no pending blocks.", "quantifier": "every history of the database, every reply of the gateway for the pre-confirmed and the pre-latest block, every contract, cell and transaction", "why_tests_cant": "The differences of all transactions are merged into one update, then two blocks are merged, and reads fall back to the database; each rule only matters in some combinations of history and reply.", "anchors": ["crates/rpc/src/pending.rs: try_from_pre_confirmed_and_pre_latest, PendingWatcher::get, find_transaction, find_finalized_tx_data", "crates/gateway-types/src/reply.rs: StateDiff::extend, deduplicate, From<StateUpdate>", "crates/common/src/state_update.rs: apply, contract_nonce, storage_value, contract_class", "crates/rpc/src/method/get_nonce.rs", "crates/rpc/src/method/get_storage_at.rs", "crates/rpc/src/method/get_class_hash_at.rs", "crates/rpc/src/method/get_transaction_status.rs", "crates/rpc/src/method/get_transaction_receipt.rs", "crates/rpc/src/method/get_transaction_by_hash.rs"]}
{"id": "C86", "title": "Pre-confirmed data that is shown is the gateway's and current", "statement": "The pending block that queries see was given by the gateway for the number after the stored chain; while the node runs it never loses transactions; what the gateway says about the pending block is shown soon after the node asked for it and the chain it follows is stored, and only on that chain. Nothing the gateway answers makes the node panic.", "quantifier": "every sequence of polling rounds with arbitrary answers, stored blocks, reorgs, restarts of the polling task and handled events", "why_tests_cant": "The poller remembers what it passed on, the consumer compares with the database at another time, and the query compares again; whether data is lost depends on the interleaving.", "anchors": ["crates/pathfinder/src/state/sync/pending.rs: poll_pre_confirmed, State::update, fetch_pre_latest", "crates/pathfinder/src/state/sync.rs: consumer (PreConfirmed)", "crates/rpc/src/pending.rs: PendingWatcher::get"]}
{"id": "C87", "title": "Storage proofs can be checked", "statement": "For every stored block, a storage proof answer carries the two roots of the block, and nodes that prove the presence or absence, and the value, of every class, contract and storage key asked for, against those roots; the class hash, nonce and storage root given for a contract hash to its proved leaf. Nothing else can be proved without a hash collision. Keys that are not valid are refused; valid requests of at most 100 keys are not.", "quantifier": "every history of blocks, every stored block, every request, every set of nodes a dishonest server may send", "why_tests_cant": "Needs that nodes written by later blocks never disturb the tree of an earlier one, for all histories and all keys.", "anchors": ["crates/rpc/src/method/get_storage_proof.rs: get_storage_proof, get_class_proofs, get_contract_proofs, get_contract_storage_proofs", "crates/merkle-tree/src/contract.rs: get_proofs", "crates/merkle-tree/src/class.rs: get_proofs", "crates/merkle-tree/src/tree.rs: get_proofs"]}
{"id": "C88", "title": "Every JSON-RPC request is answered once, with its own id", "statement": "A message on HTTP or on a websocket is answered as JSON-RPC 2.0 says: each request with an id exactly once, with that id and with what its method returned (an internal error if it panicked, -32601 if it does not exist), in the order of the batch; notifications are run and not answered; what is no request gets -32600, what is no JSON -32700, an empty batch -32600. Each method asked for is called exactly once. A connection lives on whatever is sent.", "quantifier": "every body, every batch, every order in which its requests finish, every behaviour of the methods, every history of messages on a connection", "why_tests_cant": "Quantifies over all batches and all orders in which concurrent requests finish, and over all histories of a connection.", "anchors": ["crates/rpc/src/jsonrpc/router.rs: run_request, run_concurrently, rpc_handler", "crates/rpc/src/jsonrpc/router/method.rs: handle_json_rpc_body", "crates/rpc/src/jsonrpc/router/subscription.rs: handle_json_rpc_socket, handle_request", "crates/rpc/src/jsonrpc/request.rs: RpcRequest", "crates/rpc/src/jsonrpc/response.rs: RpcResponse"]}
{"id": "C89", "title": "Subscriptions begin, run and end in order", "statement": "On one websocket connection, a client gets the id of a subscription before its first notification; no id is given twice; notifications are exactly what the subscription made, in order and without gaps, until it is ended; unsubscribing succeeds exactly for running subscriptions, and nothing comes after its answer; a subscription that ends by itself tells the client.", "quantifier": "every history of requests and batches on the connection, every interleaving of the connection loop with the two tasks of each subscription, every point at which a task fails or is aborted", "why_tests_cant": "The tasks share a registry and a channel without a common lock; the claims depend on every interleaving.", "anchors": ["crates/rpc/src/jsonrpc/router/subscription.rs: handle_json_rpc_socket, handle_request, invoke, Subscriptions, SubscriptionsGuard, SubscriptionSender"]}
{"id": "C90", "title": "Blocks served to peers arrive", "statement": "A request of a peer for a range of blocks is answered with the data of exactly the stored blocks asked for, in order, at most a hundred, and with one end mark. A node that asks an honest node for headers, transactions with receipts, events, classes and state diffs of stored blocks gets all of them, as stored, and never gets stuck.", "quantifier": "every stored chain, every request (start by number or hash, direction, step, limit), every range of blocks and number of rounds", "why_tests_cant": "Server and client each have loops, limits and conversions of their own; a mismatch shows only for particular blocks, for example those that migrate a class.", "anchors": ["crates/pathfinder/src/p2p_network/sync/sync_handlers.rs: iterate, get_header, get_transactions_for_block, get_events_for_block, get_state_diff, get_classes_for_block", "crates/p2p/src/sync/client/conv.rs: ToDto, TryFromDto", "crates/p2p/src/sync/client/peer_agnostic.rs: header_stream, transaction_stream, state_diff_stream, event_stream, state_diff_for_block"]}
{"id": "C91", "title": "Connections with peers are limited and cannot be taken over", "statement": "A node keeps at most one connection with each peer, and no more inbound (direct, relayed) and outbound connections than configured. No inbound connection from an address off the whitelist is accepted. A useful outbound peer is never disconnected. A newcomer replaces an inbound peer that is neither protected for its network nor among the fastest, and an attacker from one network cannot drive out the other peers. An evicted peer cannot come back for the configured time. Too many inbound connections in an interval, and quick reconnections from one address, are refused. Nothing the peers do makes the node panic.", "quantifier": "every configuration and every history of connections, dials, failures, closings, pings, reports and passing time, with any order of iteration of the hash map", "why_tests_cant": "The record of a peer outlives its connections, and handlers for pending and established connections interleave; the limits hold only if all of them agree in every order.", "anchors": ["crates/p2p/src/core/behaviour.rs: Behaviour, handle_pending_inbound_connection, handle_established_inbound_connection, handle_pending_outbound_connection, on_swarm_event, evict_inbound_peer, evict_outbound_peer, prevent_evicted_peer_reconnections, not_useful", "crates/p2p/src/peers.rs: Peer, PeerSet", "crates/p2p/src/core.rs: Config", "crates/p2p/src/main_loop.rs: handle_command"]}
{"id": "C92", "title": "A submitted transaction reaches the gateway unchanged and is known from then on", "statement": "starknet_addInvokeTransaction, addDeclareTransaction and addDeployAccountTransaction send exactly the transaction the user gave to the gateway, once. A hash is answered exactly if the gateway took the transaction; an error of the gateway is answered with the code the API has for it. After a hash was answered, starknet_getTransactionStatus never says that there is no such transaction unless it was rejected. The status is what the node itself has, else what the gateway says, else whether it was submitted here. starknet_getMessagesStatus lists the status of each message.", "quantifier": "every transaction, version, answer of the gateway, state of the database, and every history of submissions, queries and passing time", "why_tests_cant": "The submission, the cache and the query are tested one by one on fixtures; that the request says what the user said, and what happens when the database fails or the cache is full or old in between, is not.", "anchors": ["crates/rpc/src/method/add_invoke_transaction.rs: add_invoke_transaction, add_invoke_transaction_impl", "crates/rpc/src/method/add_declare_transaction.rs: add_declare_transaction", "crates/rpc/src/method/add_deploy_account_transaction.rs: add_deploy_account_transaction", "crates/gateway-types/src/request.rs: add_transaction", "crates/rpc/src/tracker.rs: SubmittedTransactionTracker", "crates/rpc/src/method/get_transaction_status.rs: get_transaction_status", "crates/rpc/src/method/get_messages_status.rs: get_messages_status"]}
{"id": "C93", "title": "What the JSON-RPC API shows of blocks, transactions, receipts and state updates is what is stored", "statement": "Numbers are written in the one way that the specification allows and are read back. From the JSON of a transaction a client gets back the stored transaction with all of its fields, so that it can check its hash; from that of a receipt the fee and its currency, the messages, the events, the outcome, the deployed address, the resources and, for an L1 handler, the hash of the message as the contract on Ethereum computes it; from that of a header the header, so that the hash of the block can be checked; blocks list all transactions and receipts in their order; a state update lists exactly the changes of the block, each once. This holds for every version of the API.", "quantifier": "every number, transaction, receipt, header, block body and state update, and every version of the API", "why_tests_cant": "Fixtures compare the JSON of a few values at each version; that nothing stored is dropped, duplicated or shown under a wrong name, and that two different values never look the same, is a statement on all values.", "anchors": ["crates/rpc/src/dto/primitives.rs: hex_str, U64Hex, U128Hex, H256Hex", "crates/serde/src/lib.rs: bytes_to_hex_str", "crates/rpc/src/dto/transaction.rs: TransactionWithHash, ResourceBounds", "crates/rpc/src/dto/receipt.rs: TxnReceiptWithBlockInfo, TxnReceipt, ExecutionResources", "crates/rpc/src/dto/event.rs: Event", "crates/rpc/src/dto/block.rs: BlockHeader", "crates/rpc/src/dto/state_update.rs: StateUpdate, StateDiff", "crates/rpc/src/method/get_block_with_txs.rs: Output", "crates/rpc/src/method/get_block_with_receipts.rs: Output", "crates/common/src/transaction.rs: L1HandlerTransaction::calculate_message_hash"]}
{"id": "C94", "title": "A database opens as it was created, and keeps the blocks that it was asked to keep", "statement": "Opening a database brings its schema up to date by applying every missing change once and in order, however often and wherever earlier attempts were cut short; databases too old or too new are refused untouched. A new database is made in the modes asked for. Whether history and tries are pruned never changes afterwards; a start that asks for something else is refused and changes nothing; a start that asks for nothing always works and keeps modes and blocks. With history N the newest block and the N before it are kept, over all restarts, changes of N and crashes, and older ones are removed.", "quantifier": "every schema history, database, requested configuration, crash point between two writes, and every history of starts, crashes, stored blocks, L1 updates and reorgs", "why_tests_cant": "Tests open a few databases once or twice with chosen settings; crashes between two writes of the opening, and histories of changing settings, are not covered by any finite set.", "anchors": ["crates/storage/src/lib.rs: StorageBuilder::migrate, readonly, determine_trie_prune_mode, determine_blockchain_history_mode, validate_mode_and_update_db, migrate_database", "crates/storage/src/connection/pruning.rs: prune_block", "crates/pathfinder/src/state/sync.rs: perform_blockchain_pruning, PruningEvent"]}
{"id": "C95", "title": "Every request to a peer gets one outcome, and what the peer sent", "statement": "A request for headers, classes, state diffs, transactions or events that is handed to the p2p layer gets at most one outcome, and gets one as soon as nothing is left to do: a channel with the responses once the request was sent, or an error if the peer cannot be reached, the connection is lost, the stream cannot be opened or takes too long. The node does not panic. The channel holds the responses that the peer wrote, in order, and its end tells the end of the answer.", "quantifier": "every history of requests, connections made and lost, dials failing, streams opened, refused, failing and timing out at any point, and every order in which the node handles them; every stream of responses and every point where it is cut", "why_tests_cant": "The order of events between the swarm, the connection handlers and the futures of the streams is chosen by the scheduler and the network; tests follow a few of these orders on connections that work.", "anchors": ["crates/p2p_stream/src/lib.rs: Behaviour::send_request, on_connection_closed, on_dial_failure, preload_new_handler, on_connection_handler_event, poll", "crates/p2p_stream/src/handler.rs: Handler::on_fully_negotiated_outbound, on_dial_upgrade_error, poll", "crates/p2p/src/sync/behaviour.rs: handle_command, handle_event", "crates/p2p/src/sync/client.rs: impl_send", "crates/p2p/src/sync/protocol.rs: read_response, write_response"]}
{"id": "C96", "title": "The bandwidth limit of a connection holds and holds nothing up for good", "statement": "With the limits on reading and writing set, no connection with a peer reads or writes more bytes in any stretch of time than the limit allows; without them there is no limit, and settings that are too low or only one of them are refused. What goes through is what was sent, in order. A read or write that has to wait goes on once the limit allows it; bytes that were not transferred do not count; no call makes the node panic.", "quantifier": "every limit, every schedule of reads, writes, bytes arriving, room for writing and wake-ups, with buffers of any length and short transfers, and every stretch of time in it", "why_tests_cant": "The bound is on every window of every schedule, and whether a waiting task is woken depends on which futures live across polls; the tests poll a connection to its end with one buffer size and a runtime that has nothing else to do.", "anchors": ["crates/p2p/src/transport/rate_limit.rs: RateLimit::new, Connection::poll_read, poll_write, Limiter::until_n_ready, MIN_BYTES_PER_SEC", "crates/p2p/src/builder.rs: build", "crates/pathfinder/src/config/p2p/cli.rs: max_read_bytes_per_sec, max_write_bytes_per_sec", "crates/pathfinder/src/config/p2p/config.rs"]}
{"id": "C97", "title": "The gateway is asked what was meant, as often as is meant", "statement": "The feeder gateway reads from the URL it gets the call that was made, with the same block and hashes; a transaction that is submitted reaches the gateway as it is, with its token, and exactly once. Any other call is sent again until it gets an answer or an error that the gateway states, with the documented waits in between, and ends if the gateway refuses it. The API key goes with every request. After the addresses of the gateway have changed, requests go to the new ones.", "quantifier": "every call with every block, hash and token, every sequence of outcomes of the network, and every sequence of refreshes of the HTTP client and of their failures", "why_tests_cant": "Retries are an unbounded loop over outcomes of the network, URLs are built from arbitrary bytes, and refreshes run beside calls; the tests replay a few recorded answers with retrying off.", "anchors": ["crates/gateway-client/src/lib.rs: Client, GatewayApi, with_urls, refresh_http_client", "crates/gateway-client/src/builder.rs: Request, get, get_as_bytes, post_with_json, parse, parse_raw, retry0, retry_condition", "crates/gateway-client/src/http_client_refresh.rs"]}
{"id": "C98", "title": "Who votes and who proposes is what was configured or what the contract says", "statement": "A node that starts has the validators whose addresses it was given, with one vote each; nodes with the same addresses agree on them. What a contract returns as a list of participants is read as that list, and anything else is refused. Who proposes in a round is one of the validators, chosen from the list of proposers by its order or priority, the same on every node, another one when a round fails; choosing never stops the node.", "quantifier": "every configuration, every list a contract may return, every height and round, and every state of the chain that two nodes may be at", "why_tests_cant": "The answer of a contract is an arbitrary list of field elements, and agreement is about pairs of nodes with different configurations and states; the tests call a mock contract with one answer.", "anchors": ["crates/consensus-fetcher/src/lib.rs: get_validators_at_height, get_proposers_at_height, parse_consensus_participants_from_result, felt_to_public_key", "crates/pathfinder/src/consensus/inner/fetch_validators.rs: fetch_validators, create_validators_from_config", "crates/pathfinder/src/consensus/inner/fetch_proposers.rs: L2ProposerSelector, fetch_proposers", "crates/consensus/src/lib.rs: ValidatorSet::new, RoundRobinProposerSelector", "crates/consensus/src/internal/malachite.rs: select_proposer, total_voting_power", "crates/pathfinder/src/config.rs: ConsensusConfig::parse_or_exit"]}
{"id": "C99", "title": "Compiling a class in a child process gives the whole compiled class or an error", "statement": "However the node, the child that compiles and the pipes between them are scheduled, a result is exactly what the compiler for the version that the class states gives for the whole class with the node's settings, never a part of it; an error means that the class does not compile or the child was killed. The two never wait for each other for ever, a compiler that panics gives an error, and the child is always waited for.", "quantifier": "every class, every schedule of both processes, every capacity of the pipes, every moment at which the child is killed, and all settings by option, variable or default", "why_tests_cant": "Deadlocks and cut off output depend on sizes, the capacity of pipes, scheduling and the moment of a crash; the tests call the function in the same process or with one fixture.", "anchors": ["crates/compiler/src/lib.rs: compile_sierra_to_casm, compile_sierra_to_casm_impl, compile_sierra_to_casm_deser_impl, parse_sierra_version", "crates/pathfinder/src/bin/pathfinder/main.rs: compile_main", "crates/pathfinder/src/config.rs: CompileConfig, blockifier_libfuncs"]}
