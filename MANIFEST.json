{
 "claims": [
  {
   "property": "C01",
   "status": "proved",
   "theorems": [
    "Verif.Trie.C01_trie_is_map"
   ],
   "note": ""
  },
  {
   "property": "C02",
   "status": "proved",
   "theorems": [
    "Verif.Trie.C02_root_history_independent"
   ],
   "note": ""
  },
  {
   "property": "C03",
   "status": "proved",
   "theorems": [
    "Verif.Trie.C03_erase_fresh_key",
    "Verif.Trie.C03_empty_root_zero"
   ],
   "note": ""
  },
  {
   "property": "C04",
   "status": "proved",
   "theorems": [
    "Verif.Trie.C04_commitment_eq_spec"
   ],
   "note": ""
  },
  {
   "property": "C05",
   "status": "proved",
   "theorems": [
    "Verif.Trie.C05_versions_reload"
   ],
   "note": ""
  },
  {
   "property": "C06",
   "status": "proved",
   "theorems": [
    "Verif.Trie.C06_incremental_eq_scratch"
   ],
   "note": ""
  },
  {
   "property": "C07",
   "status": "proved",
   "theorems": [
    "Verif.Trie.C07_proofs_complete",
    "Verif.Trie.C07_proof_complete"
   ],
   "note": ""
  },
  {
   "property": "C08",
   "status": "proved",
   "theorems": [
    "Verif.Trie.C08_proofs_sound"
   ],
   "note": "stated as: answer correct, or an explicit hash collision between a node of the offered proof and a node of the genuine proof"
  },
  {
   "property": "C09",
   "status": "proved",
   "theorems": [
    "Verif.Trie.C09_equal_roots_equal_content"
   ],
   "note": "stated as: contents equal, or an explicit hash collision between the genuine proofs of some key"
  },
  {
   "property": "C10",
   "status": "proved",
   "theorems": [
    "Verif.Trie.C10_removed_exact"
   ],
   "note": ""
  },
  {
   "property": "C100",
   "status": "partial",
   "theorems": [
    "Verif.Drive.C100_engine",
    "Verif.Drive.C100_commands",
    "Verif.Drive.C100_next",
    "Verif.Drive.C100_timeout",
    "Verif.Drive.C100_given",
    "Verif.Drive.C100_on_time",
    "Verif.Drive.C100_poll_ends",
    "Verif.Drive.C100_decision",
    "Verif.Drive.C100_finished",
    "Verif.Drive.C100_no_log_violated",
    "Verif.Drive.C100_round_trip",
    "Verif.Drive.C100_restart",
    "Verif.Drive.C100_restore",
    "Verif.Drive.C100_no_panic_partial",
    "Verif.Drive.C100_unknown_kind_violated",
    "Verif.Drive.C100_spin_violated"
   ],
   "note": "Proved: commands, events, log lines, timers and restarts for every core, clock and schedule. Partial: no panic if the core asks for nothing in a nil round and the log was written by an engine. on_time and poll_ends assume durations above zero. Violations: F89-F91."
  },
  {
   "property": "C101",
   "status": "partial",
   "theorems": [
    "Verif.Sim.C101_limits",
    "Verif.Sim.C101_too_long",
    "Verif.Sim.C101_simulate",
    "Verif.Sim.C101_estimate",
    "Verif.Sim.C101_call",
    "Verif.Sim.C101_call_error",
    "Verif.Sim.C101_message",
    "Verif.Sim.C101_block_not_found",
    "Verif.Sim.C101_failed",
    "Verif.Sim.C101_prefix",
    "Verif.Sim.C101_answers",
    "Verif.Sim.C101_no_panic_partial",
    "Verif.Sim.C101_constants",
    "Verif.Sim.C101_flags",
    "Verif.Sim.C101_pruned_violated",
    "Verif.Sim.C101_address_violated",
    "Verif.Sim.C101_entry_point_violated",
    "Verif.Sim.C101_pending_contract_violated"
   ],
   "note": "Proved: what is run, where, and what is answered, for every library. Partial: no panic only for addresses below 2^251; an answer only if the block ten before the named one is kept. The library itself (execution, fees, traces) is a parameter. Violations: F92-F95."
  },
  {
   "property": "C102",
   "status": "partial",
   "theorems": [
    "Verif.Upgrade.C102_index_kept",
    "Verif.Upgrade.C102_ranges",
    "Verif.Upgrade.C102_repaired_partial",
    "Verif.Upgrade.C102_untouched",
    "Verif.Upgrade.C102_upgrade_partial",
    "Verif.Upgrade.C102_boundary_violated",
    "Verif.Upgrade.C102_last_range_violated",
    "Verif.Upgrade.C102_pruned_violated"
   ],
   "note": "Proved for every chain, damage and later history. Partial: the repair of revision 74 fails if the chain ends with a complete range (F96, F97) and does nothing on a pruned database (F98). Rows with missing events (P2P checkpoint sync) are not modelled."
  },
  {
   "property": "C103",
   "status": "partial",
   "theorems": [
    "Verif.Migrate.C103_rows",
    "Verif.Migrate.C103_state_partial",
    "Verif.Migrate.C103_casm_partial",
    "Verif.Migrate.C103_parent",
    "Verif.Migrate.C103_prices",
    "Verif.Migrate.C103_prices_violated",
    "Verif.Migrate.C103_commitments_violated",
    "Verif.Migrate.C103_redeclared_violated",
    "Verif.Migrate.C103_known_class_violated"
   ],
   "note": "Storage, nonces, contract classes, declaration blocks and compiled class hashes are proved for every chain and later history. Partial: the two classes of revision 73 (F102); compiled class hashes need reorgs without declarations, as in C18; L2 gas prices, commitments and re-declared classes of old blocks differ from a synced node (F99-F101)."
  },
  {
   "property": "C104",
   "status": "partial",
   "theorems": [
    "Verif.Regroup.C104_kept",
    "Verif.Regroup.C104_complete",
    "Verif.Regroup.C104_ends",
    "Verif.Regroup.C104_hang_violated"
   ],
   "note": "Proved for every database whose rows can be decoded: it ends, with everything where it was. A migration that ends without an error has left nothing out. Partial: with a row that cannot be decoded the migration need not end (F103)."
  },
  {
   "property": "C105",
   "status": "partial",
   "theorems": [
    "Verif.Feed.C105_read",
    "Verif.Feed.C105_one",
    "Verif.Feed.C105_block",
    "Verif.Feed.C105_written",
    "Verif.Feed.C105_roundtrip",
    "Verif.Feed.C105_receipt",
    "Verif.Feed.C105_receipt_old",
    "Verif.Feed.C105_panic_partial",
    "Verif.Feed.C105_receipt_written_partial",
    "Verif.Feed.C105_deploy_violated",
    "Verif.Feed.C105_account_violated",
    "Verif.Feed.C105_array_violated",
    "Verif.Feed.C105_entry_type_violated",
    "Verif.Feed.C105_l2gas_violated",
    "Verif.Feed.C105_message_violated"
   ],
   "note": "Proved: reading is exactly the documents of the specification, for all twelve kinds; writing then reading gives the transaction; full receipts are read in any order of fields. Partial: some unacceptable documents panic instead of giving an error (F104), the L2 gas of receipts and the entry point type are not written (F105), and receipts with messages to large addresses are refused (F106)."
  },
  {
   "property": "C106",
   "status": "partial",
   "theorems": [
    "Verif.Cls.C106_read",
    "Verif.Cls.C106_shown_sierra",
    "Verif.Cls.C106_shown_only",
    "Verif.Cls.C106_shown_cairo",
    "Verif.Cls.C106_shown_cairo_partial",
    "Verif.Cls.C106_again_sierra_partial",
    "Verif.Cls.C106_again_cairo_partial",
    "Verif.Cls.C106_hashed_sierra",
    "Verif.Cls.C106_hashed_cairo",
    "Verif.Cls.C106_panic_partial",
    "Verif.Cls.C106_gateway",
    "Verif.Cls.C106_abi_shown_violated",
    "Verif.Cls.C106_empty_abi_violated",
    "Verif.Cls.C106_base64_violated",
    "Verif.Cls.C106_null_violated"
   ],
   "note": "Proved: exactly the described documents are read; what is shown of Sierra classes, of programs and of entry points; what is hashed and what goes to the gateway keeps everything. Partial: an ABI with entries that compilers do not write is shown changed (F108), a shown Sierra class with an empty ABI cannot be declared (F109), a program that is not base64 panics (F107), and fields that are null are dropped before hashing (F110). The debug information of programs is taken as it is."
  },
  {
   "property": "C107",
   "status": "partial",
   "theorems": [
    "Verif.Stat.C107_answer",
    "Verif.Stat.C107_answer_unique",
    "Verif.Stat.C107_monitoring",
    "Verif.Stat.C107_agree",
    "Verif.Stat.C107_caught_up",
    "Verif.Stat.C107_no_error_partial",
    "Verif.Stat.C107_current_partial",
    "Verif.Stat.C107_behind_violated",
    "Verif.Stat.C107_restart_violated",
    "Verif.Stat.C107_race_violated",
    "Verif.Stat.C107_reorg_violated",
    "Verif.Stat.C107_early_violated",
    "Verif.Stat.C107_late_violated",
    "Verif.Stat.C107_other_modes_violated"
   ],
   "note": "Proved: the answer of both endpoints as a function of the history, for every interleaving; a node that catches up says so. Partial: when a head below the current block is noted, both endpoints fail (F111); the current block named is not the newest stored one after a rollback, while a block is being stored, or if blocks were stored before the first head was noted (F112); nodes that sync over peer-to-peer or follow consensus always say false (F113)."
  },
  {
   "property": "C108",
   "status": "partial",
   "theorems": [
    "Verif.Agree.C108_block",
    "Verif.Agree.C108_not_found",
    "Verif.Agree.C108_unique",
    "Verif.Agree.C108_latest",
    "Verif.Agree.C108_l1_block",
    "Verif.Agree.C108_l1_down",
    "Verif.Agree.C108_receipts_partial",
    "Verif.Agree.C108_receipts_violated",
    "Verif.Agree.C108_unknown_tx",
    "Verif.Agree.C108_tx_once",
    "Verif.Agree.C108_state_update_partial",
    "Verif.Agree.C108_state_update_violated"
   ],
   "note": "Proved for every history of writes and every identifier. Partial: while the events of a block are not stored yet, the block with receipts shows no transactions and a receipt by hash is an internal error, and the state update of the earliest kept block of a pruned node is reported as not found (F114). The pre_confirmed identifier is the subject of C85."
  },
  {
   "property": "C109",
   "status": "partial",
   "theorems": [
    "Verif.Quit.C109_not_torn",
    "Verif.Quit.C109_completed",
    "Verif.Quit.C109_tracked_partial",
    "Verif.Quit.C109_late_violated",
    "Verif.Quit.C109_untracked_violated",
    "Verif.Quit.C109_request_violated",
    "Verif.Quit.C109_wait_bounded",
    "Verif.Quit.C109_can_exit",
    "Verif.Quit.C109_grace_violated",
    "Verif.Quit.C109_status_partial",
    "Verif.Quit.C109_status_violated"
   ],
   "note": "Proved for every interleaving: tasks are dropped at waiting points only, blocking work that has begun is completed before the process ends, the wait is bounded, the exit can always be reached, tracked work is over before the index is stored. Partial: running blocking work delays the exit beyond the grace period (F115), requests in progress may be left without an answer and untracked work goes on during the last steps (F116), and a critical task that ended without an error gives a status of success (F116)."
  },
  {
   "property": "C11",
   "status": "proved",
   "theorems": [
    "Verif.Trie.C11_node_codec_roundtrip",
    "Verif.Trie.C11_node_codec_injective",
    "Verif.Trie.C11_removal_indices_roundtrip"
   ],
   "note": ""
  },
  {
   "property": "C110",
   "status": "partial",
   "theorems": [
    "Verif.Natv.C110_correct",
    "Verif.Natv.C110_runnable",
    "Verif.Natv.C110_bounded",
    "Verif.Natv.C110_once_partial",
    "Verif.Natv.C110_served_partial",
    "Verif.Natv.C110_retry_violated",
    "Verif.Natv.C110_panic_violated",
    "Verif.Natv.C110_queue_violated"
   ],
   "note": "Proved for every interleaving: native code given for a class was compiled from a definition of it, CASM code is that of the definition at hand, the cache is bounded, and if the classes in use fit into the cache each is compiled once and then run natively. Partial: a class that failed once is not tried again while it is in the cache, a panic ends compilation for good, and the queue of classes to compile is not bounded by the size of the cache (F117)."
  },
  {
   "property": "C111",
   "status": "partial",
   "theorems": [
    "Verif.Errs.C111_stack_partial",
    "Verif.Errs.C111_revert",
    "Verif.Errs.C111_no_text",
    "Verif.Errs.C111_selector_violated",
    "Verif.Errs.C111_texts_violated",
    "Verif.Errs.C111_class_violated",
    "Verif.Errs.C111_code",
    "Verif.Errs.C111_code_distinct",
    "Verif.Errs.C111_data_partial",
    "Verif.Errs.C111_details",
    "Verif.Errs.C111_internal",
    "Verif.Errs.C111_trace_violated",
    "Verif.Errs.C111_submit_partial",
    "Verif.Errs.C111_submit_http",
    "Verif.Errs.C111_nonce_violated",
    "Verif.Errs.C111_proof_violated",
    "Verif.Errs.C111_unknown_violated"
   ],
   "note": "Proved for stacks of any depth and all versions: codes are those of the documents, data have the documented form, a stack is shown with all calls in order around its last text, errors of the gateway are answered by their documented meaning. Partial: a frame without a selector breaks the documented schema and texts other than the last are dropped (F118); why a trace is not available, failed validations that speak of a nonce and errors of the gateway that are not known are not told as documented (F119)."
  },
  {
   "property": "C112",
   "status": "partial",
   "theorems": [
    "Verif.Casm.C112_shown",
    "Verif.Casm.C112_served",
    "Verif.Casm.C112_roundtrip",
    "Verif.Casm.C112_stable",
    "Verif.Casm.C112_absent",
    "Verif.Casm.C112_fields",
    "Verif.Casm.C112_flat_violated"
   ],
   "note": "Proved for every document and any depth of nesting: all documented fields are as stored, none are added, every class in documented form is answered, the answer can be stored and read again. Partial: nested lengths of segments are shown nested, which the documented schema does not allow, and a class of Cairo 0 is answered as not found (F120). JSON numbers other than naturals in hints, the order of fields and the depth limit of serde are not modelled."
  },
  {
   "property": "C113",
   "status": "partial",
   "theorems": [
    "Verif.Release.C113_notice",
    "Verif.Release.C113_polls",
    "Verif.Release.C113_tag",
    "Verif.Release.C113_own",
    "Verif.Release.C113_older",
    "Verif.Release.C113_off",
    "Verif.Release.C113_dev_violated"
   ],
   "note": "Proved for every sequence of responses and all versions, with precedence as semver.org states it. Partial: a node built from a commit after a release is told that this release is new (F121). The crate semver is modelled from its documentation; how it orders build metadata is a parameter. Times between polls and HTTP are not modelled."
  },
  {
   "property": "C114",
   "status": "partial",
   "theorems": [
    "Verif.GwTrace.C114_parts",
    "Verif.GwTrace.C114_revert",
    "Verif.GwTrace.C114_total",
    "Verif.GwTrace.C114_block_partial",
    "Verif.GwTrace.C114_hash_violated",
    "Verif.GwTrace.C114_short_violated",
    "Verif.GwTrace.C114_l2_violated"
   ],
   "note": "Proved for trees of any depth and all kinds of transactions: calls, places of parts, reverts and totals. Partial: that a transaction of a block gets its own trace is proved only if the gateway gives the traces in the order of the block, which is not checked, and the gas of layer 2 of calls is not the one that the totals count (F122). Sums that overflow are not modelled."
  },
  {
   "property": "C115",
   "status": "partial",
   "theorems": [
    "Verif.TraceOut.C115_calls",
    "Verif.TraceOut.C115_trace_partial",
    "Verif.TraceOut.C115_block",
    "Verif.TraceOut.C115_reads",
    "Verif.TraceOut.C115_schema_partial",
    "Verif.TraceOut.C115_constructor_violated",
    "Verif.TraceOut.C115_handler_violated",
    "Verif.TraceOut.C115_dummy_violated",
    "Verif.TraceOut.C115_empty_violated",
    "Verif.TraceOut.C115_field_violated"
   ],
   "note": "Proved for all versions and trees of any depth: calls, parts, resources, differences, initial reads and blocks are written under the documented names and nothing else. Partial: an L1 handler that was reverted is shown as a call nobody made before 0.9; a trace is as the documents require only if its calls have the fields that they require; one deployment without a constructor call loses the whole block (F123). The texts of felts are not modelled."
  },
  {
   "property": "C116",
   "status": "partial",
   "theorems": [
    "Verif.ExecReceipt.C116_all",
    "Verif.ExecReceipt.C116_members",
    "Verif.ExecReceipt.C116_rounds",
    "Verif.ExecReceipt.C116_order_partial",
    "Verif.ExecReceipt.C116_one_part",
    "Verif.ExecReceipt.C116_status",
    "Verif.ExecReceipt.C116_resources_partial",
    "Verif.ExecReceipt.C116_pedersen_violated",
    "Verif.ExecReceipt.C116_order_violated"
   ],
   "note": "Proved for all transactions and trees: nothing lost, nothing twice (permutation), membership by path, the status, the order in every case as rounds over equal numbers, and the order of emission if one part emits, or two parts of which the later one uses numbers of the earlier one, as an execution and the transfer of its fee. Partial: if the validation emits events too, the events of the execution are out of order, and the count of Pedersen hashes is that of Poseidon hashes (F124). How the execution numbers events is the library and not modelled."
  },
  {
   "property": "C117",
   "status": "partial",
   "theorems": [
    "Verif.BatchExec.C117_block",
    "Verif.BatchExec.C117_cut",
    "Verif.BatchExec.C117_split",
    "Verif.BatchExec.C117_accepted",
    "Verif.BatchExec.C117_aligned",
    "Verif.BatchExec.C117_error",
    "Verif.BatchExec.C117_refused",
    "Verif.BatchExec.C117_rollback_violated",
    "Verif.BatchExec.C117_error_violated"
   ],
   "note": "Proved for all proposals as the node executes them: batches without an error, then one cut. Partial: the interface also allows a batch after a rollback or after an error, and then the state of the block is that of other transactions than it lists (F125); the node does neither. That the library executes in order, gives one outcome per transaction and commits the first n is assumed."
  },
  {
   "property": "C12",
   "status": "proved",
   "theorems": [
    "Verif.Trie.C12_pruning_keeps_retained"
   ],
   "note": "all block sequences, all pruning depths, all contracts at once"
  },
  {
   "property": "C13",
   "status": "partial",
   "theorems": [
    "Verif.Trie.C13_reorg_keeps_tries_archive",
    "Verif.Trie.C13_reorg_keeps_tries_partial",
    "Verif.Trie.C13_violated"
   ],
   "note": "complete in archive mode; with pruning proved for histories without a reorg below the target of an earlier reorg; the unrestricted statement is false for this code (witness C13_violated)"
  },
  {
   "property": "C14",
   "status": "partial",
   "theorems": [
    "Verif.Trie.C14_root_lookup_exact_blocks",
    "Verif.Trie.C14_root_lookup_exact_partial"
   ],
   "note": "complete without reorgs; with reorgs under the same restriction as C13"
  },
  {
   "property": "C15",
   "status": "proved",
   "theorems": [
    "Verif.State.C15_historical_reads",
    "Verif.State.C15_block_of_value",
    "Verif.State.C15_contract_exists",
    "Verif.State.reads_after_history"
   ],
   "note": "All histories, all blocks; reads_after_history also covers reorgs and pruning."
  },
  {
   "property": "C16",
   "status": "proved",
   "theorems": [
    "Verif.State.C16_reverse_updates"
   ],
   "note": "Contracts only; the hypothesis DeployedFirst is the protocol rule that a contract has a class before anything of it is written. Reverse class updates are under C18."
  },
  {
   "property": "C17",
   "status": "proved",
   "theorems": [
    "Verif.State.C17_purge_restores"
   ],
   "note": "CASM hashes are C18."
  },
  {
   "property": "C18",
   "status": "partial",
   "theorems": [
    "Verif.State.C18_casm_hash_partial",
    "Verif.State.C18_reverse_classes_partial",
    "Verif.State.C18_violated",
    "Verif.State.C18_reorg_violated",
    "Verif.State.C18_read_back_violated",
    "Verif.State.C18_two_migrations_violated"
   ],
   "note": "Holds for histories whose reorgs remove no class declaration; the code violates it otherwise (casm_class_hashes is not purged), shown by witnesses."
  },
  {
   "property": "C19",
   "status": "proved",
   "theorems": [
    "Verif.State.C19_pruning_preserves_reads"
   ],
   "note": ""
  },
  {
   "property": "C20",
   "status": "proved",
   "theorems": [
    "Verif.State.C20_read_back",
    "Verif.State.C20_no_block"
   ],
   "note": "For chains obeying the protocol rules (ChainOk); reorgs that remove class declarations fail, see C18_read_back_violated. The rules are shown to be needed by C20_undeclared_deploy and C20_redeclared_sierra. Pruned histories are C47."
  },
  {
   "property": "C21",
   "status": "proved",
   "theorems": [
    "Verif.Events.C21_block_bloom_no_false_negatives"
   ],
   "note": "at most 16 key positions, as the code asserts; SipHash is a parameter"
  },
  {
   "property": "C22",
   "status": "proved",
   "theorems": [
    "Verif.Events.C22_aggregate_exact",
    "Verif.Events.C22_insert_total"
   ],
   "note": ""
  },
  {
   "property": "C23",
   "status": "proved",
   "theorems": [
    "Verif.Events.C23_pages_concatenate",
    "Verif.Events.C23_pages_concatenate_fixed"
   ],
   "note": "archive mode; for pruning mode see C25 and finding F5"
  },
  {
   "property": "C24",
   "status": "proved",
   "theorems": [
    "Verif.Events.C24_progress",
    "Verif.Events.C24_terminates",
    "Verif.Events.C24_complete_session"
   ],
   "note": "archive mode; for pruning mode see C25 and finding F5"
  },
  {
   "property": "C25",
   "status": "partial",
   "theorems": [
    "Verif.Events.C25_pages_in_range_partial",
    "Verif.Events.C25_violated",
    "Verif.Events.C23_pruning_violated",
    "Verif.Events.C25_pruned_panics"
   ],
   "note": "holds without pruning; violated in pruning mode, where the requested start and the block of a token are replaced by the first block of the database"
  },
  {
   "property": "C26",
   "status": "proved",
   "theorems": [
    "Verif.Events.C26_pending_pages",
    "Verif.Events.C26_pending_session",
    "Verif.Events.C26_pending_follows",
    "Verif.Events.C26_zero_page"
   ],
   "note": "positive page sizes; C26_zero_page shows that a page size of zero gives a token for the same position"
  },
  {
   "property": "C27",
   "status": "partial",
   "theorems": [
    "Verif.Events.C27_index_complete_partial",
    "Verif.Events.C27_violated",
    "Verif.Events.C27_genesis_violated"
   ],
   "note": "holds for histories in which no crash finds a saved index of an abandoned fork that ends at the head; violated otherwise"
  },
  {
   "property": "C28",
   "status": "proved",
   "theorems": [
    "Verif.Crypto.C28_from_bytes",
    "Verif.Crypto.C28_from_slice",
    "Verif.Crypto.C28_hex_accepts",
    "Verif.Crypto.C28_hex_rejects",
    "Verif.Crypto.C28_to_hex",
    "Verif.Crypto.C28_as_hex",
    "Verif.Crypto.C28_hex_round_trip",
    "Verif.Crypto.C28_from_int",
    "Verif.Crypto.C28_to_int",
    "Verif.Crypto.C28_251_bits",
    "Verif.Crypto.C28_of_mont",
    "Verif.Crypto.C28_to_mont",
    "Verif.Crypto.C28_mont_round_trip",
    "Verif.Crypto.C28_add_sub",
    "Verif.Crypto.C28_from_bits",
    "Verif.Crypto.C28_view_bits",
    "Verif.Crypto.C28_bits_round_trip",
    "Verif.Crypto.C28_dec_round_trip"
   ],
   "note": "Decimal texts go through the num-bigint crate, whose parsing and printing are hypotheses of C28_dec_round_trip."
  },
  {
   "property": "C29",
   "status": "proved",
   "theorems": [
    "Verif.Crypto.C29_prime",
    "Verif.Crypto.C29_value_lt",
    "Verif.Crypto.C29_value_inj",
    "Verif.Crypto.C29_surjective",
    "Verif.Crypto.C29_from_bytes",
    "Verif.Crypto.C29_zero",
    "Verif.Crypto.C29_one",
    "Verif.Crypto.C29_add",
    "Verif.Crypto.C29_sub",
    "Verif.Crypto.C29_neg",
    "Verif.Crypto.C29_double",
    "Verif.Crypto.C29_mul",
    "Verif.Crypto.C29_square",
    "Verif.Crypto.C29_cmp",
    "Verif.Crypto.C29_is_zero",
    "Verif.Crypto.C29_is_one"
   ],
   "note": "For both element types, down to the 64-bit carries."
  },
  {
   "property": "C30",
   "status": "proved",
   "theorems": [
    "Verif.Crypto.C30_zero",
    "Verif.Crypto.C30_inverse"
   ],
   "note": "For both element types, including that the loops end."
  },
  {
   "property": "C31",
   "status": "proved",
   "theorems": [
    "Verif.Crypto.C31_sqrt"
   ],
   "note": "Including that the loops end and that the subtraction of the exponents does not underflow."
  },
  {
   "property": "C32",
   "status": "proved",
   "theorems": [
    "Verif.Crypto.C32_streaming",
    "Verif.Crypto.C32_hash_many",
    "Verif.Crypto.C32_hash_two",
    "Verif.Crypto.C32_padding",
    "Verif.Crypto.C32_permute",
    "Verif.Crypto.C32_permute_bijective"
   ],
   "note": "The round constants of the program are taken as they are; that they are the published ones is not claimed."
  },
  {
   "property": "C33",
   "status": "proved",
   "theorems": [
    "Verif.Crypto.C33_affine_points",
    "Verif.Crypto.C33_affine_unique",
    "Verif.Crypto.C33_generator",
    "Verif.Crypto.C33_proj_add",
    "Verif.Crypto.C33_proj_double",
    "Verif.Crypto.C33_proj_add_affine",
    "Verif.Crypto.C33_proj_negate",
    "Verif.Crypto.C33_proj_identity",
    "Verif.Crypto.C33_proj_multiply",
    "Verif.Crypto.C33_proj_multiply_elm",
    "Verif.Crypto.C33_affine_add",
    "Verif.Crypto.C33_affine_double",
    "Verif.Crypto.C33_affine_negate",
    "Verif.Crypto.C33_affine_identity",
    "Verif.Crypto.C33_affine_multiply",
    "Verif.Crypto.C33_affine_multiply_elm",
    "Verif.Crypto.C33_to_projective",
    "Verif.Crypto.C33_to_affine",
    "Verif.Crypto.C33_from_x",
    "Verif.Crypto.C33_infinity_to_affine_violated",
    "Verif.Crypto.C33_infinity_to_projective_violated",
    "Verif.Crypto.C33_gen_multiply_elm"
   ],
   "note": "Affine and projective formulas, conversions, decompression and the windowed generator multiplication equal Mathlib's elliptic curve group, with no division by zero. The two _violated theorems record that the conversions between the forms drop the infinity flag (F9)."
  },
  {
   "property": "C34",
   "status": "partial",
   "theorems": [
    "Verif.Crypto.C34_public_key",
    "Verif.Crypto.C34_sign",
    "Verif.Crypto.C34_verifies_partial",
    "Verif.Crypto.C34_violated",
    "Verif.Crypto.C34_full_key_violated"
   ],
   "note": "Signing does not enforce the bounds of verification (F10), and full-key verification rejects one of every two opposite keys (F11); proved for signatures within the bounds."
  },
  {
   "property": "C35",
   "status": "partial",
   "theorems": [
    "Verif.Crypto.C35_panics_iff",
    "Verif.Crypto.C35_no_panic_partial",
    "Verif.Crypto.C35_full_key_partial",
    "Verif.Crypto.C35_violated"
   ],
   "note": "Verification panics exactly for values between the curve order and the field prime with a key on the curve (F12)."
  },
  {
   "property": "C36",
   "status": "proved",
   "theorems": [
    "Verif.Commit.C36_commitment",
    "Verif.Commit.C36_state",
    "Verif.Commit.C36_order",
    "Verif.Commit.C36_missing_class",
    "Verif.Commit.C36_calculate"
   ],
   "note": "For every hash function. The commitments of every block of every history are those of the abstract state; the order of entries does not matter."
  },
  {
   "property": "C37",
   "status": "partial",
   "theorems": [
    "Verif.Diff.C37_stream",
    "Verif.Diff.C37_order",
    "Verif.Diff.C37_complete",
    "Verif.Diff.C37_length",
    "Verif.Diff.C37_change_count",
    "Verif.Diff.C37_length_data_partial",
    "Verif.Diff.C37_length_data_violated",
    "Verif.Diff.C37_empty_violated",
    "Verif.Diff.C37_empty_partial"
   ],
   "note": "The commitment and the length of StateUpdate are proved in full; the length and emptiness of StateUpdateData leave out migrated classes (F17)."
  },
  {
   "property": "C38",
   "status": "partial",
   "theorems": [
    "Verif.Diff.C38_class",
    "Verif.Diff.C38_declared",
    "Verif.Diff.C38_nonce_partial",
    "Verif.Diff.C38_storage_partial",
    "Verif.Diff.C38_nonce_violated",
    "Verif.Diff.C38_storage_violated",
    "Verif.Diff.C38_migrated_violated",
    "Verif.Diff.C38_nonce_one",
    "Verif.Diff.C38_storage_one"
   ],
   "note": "Classes and declarations in full; nonces and storage unless the newer update replaces the class of a contract that the older one deploys; migrated classes are lost (F18)."
  },
  {
   "property": "C39",
   "status": "proved",
   "theorems": [
    "Verif.Sync.C39_forward",
    "Verif.Sync.C39_backward",
    "Verif.Sync.C39_verify"
   ],
   "note": "Forward and backward continuity and the verification stage, for every stream: exactly the longest linked prefix passes, then an error that blames the sender."
  },
  {
   "property": "C40",
   "status": "proved",
   "theorems": [
    "Verif.Sync.C40_none",
    "Verif.Sync.C40_gap"
   ],
   "note": "Both directions: no gap iff every number up to the head is stored; otherwise the gap is the highest maximal range of missing numbers, with the parent hash of the row above it."
  },
  {
   "property": "C41",
   "status": "proved",
   "theorems": [
    "Verif.Sync.C41_source",
    "Verif.Sync.C41_stage",
    "Verif.Sync.C41_chunks",
    "Verif.Sync.C41_stage_task",
    "Verif.Sync.C41_chunk_task",
    "Verif.Sync.C41_schedule_prefix",
    "Verif.Sync.C41_schedule_complete"
   ],
   "note": "Each stage on its own, and any schedule of the tasks over bounded channels: always a prefix, complete when nothing can move, bounded number of steps. Not modelled: cancellation and metrics."
  },
  {
   "property": "C42",
   "status": "partial",
   "theorems": [
    "Verif.Gas.C42_formula",
    "Verif.Gas.C42_at_least_min",
    "Verif.Gas.C42_bounded",
    "Verif.Gas.C42_direction",
    "Verif.Gas.C42_monotone",
    "Verif.Gas.C42_no_panic_partial",
    "Verif.Gas.C42_overflow_violated",
    "Verif.Gas.C42_below_min",
    "Verif.Gas.C42_recovers",
    "Verif.Gas.C42_stuck_violated",
    "Verif.Gas.C42_validate"
   ],
   "note": "All clauses are proved for every price and usage where the computation does not overflow; it panics for prices near 2^128, and a price below 333 never rises (F14)."
  },
  {
   "property": "C43",
   "status": "partial",
   "theorems": [
    "Verif.Gas.C43_add",
    "Verif.Gas.C43_linked",
    "Verif.Gas.C43_size",
    "Verif.Gas.C43_block",
    "Verif.Gas.C43_limit_violated",
    "Verif.Gas.C43_average",
    "Verif.Gas.C43_in_range_partial",
    "Verif.Gas.C43_saturation_violated",
    "Verif.Gas.C43_no_average",
    "Verif.Gas.C43_average_panics_iff",
    "Verif.Gas.C43_validate",
    "Verif.Gas.C43_validate_fri",
    "Verif.Gas.C43_block_filled",
    "Verif.Gas.C43_block_refused"
   ],
   "note": "Linked samples and the bound on their number hold for every history (with a limit of zero one sample is kept); the averages are never above the greatest sample, and not below the smallest unless the 128-bit sum saturates (F15)."
  },
  {
   "property": "C44",
   "status": "partial",
   "theorems": [
    "Verif.Cons.C44_crash",
    "Verif.Cons.C44_round_trip",
    "Verif.Cons.C44_glued_violated",
    "Verif.Cons.C44_name",
    "Verif.Cons.C44_name_violated",
    "Verif.Cons.C44_recover_partial",
    "Verif.Cons.C44_torn_violated",
    "Verif.Cons.C44_empty_violated",
    "Verif.Cons.C44_restart_partial",
    "Verif.Cons.C44_unfinished",
    "Verif.Cons.C44_restart_violated"
   ],
   "note": "The log survives a crash at every byte as far as reading goes. Recovery of all heights is proved when every log is readable and the address has no dash; a torn line, an entry glued to it and an empty log of a committed height violate the property (F19). Restarts keep the last decision in orderly runs with a history of at least one height."
  },
  {
   "property": "C45",
   "status": "proved",
   "theorems": [
    "Verif.Common.C45_read_show",
    "Verif.Common.C45_show_injective",
    "Verif.Common.C45_read_accepts",
    "Verif.Common.C45_from_as_u32",
    "Verif.Common.C45_as_from_u32",
    "Verif.Common.C45_as_u32_lt",
    "Verif.Common.C45_order",
    "Verif.Common.C45_order_eq",
    "Verif.Common.C45_as_u32_unordered"
   ],
   "note": ""
  },
  {
   "property": "C46",
   "status": "partial",
   "theorems": [
    "Verif.Head.C46_accepted",
    "Verif.Head.C46_chain",
    "Verif.Head.C46_update",
    "Verif.Head.C46_reorg",
    "Verif.Head.C46_stored_partial",
    "Verif.Head.C46_late_violated",
    "Verif.Head.C46_pruned_violated",
    "Verif.Head.C46_anchor_violated",
    "Verif.Head.C46_back_violated"
   ],
   "note": "Full for what is shown as accepted. Blocks announced before they are stored are not shown as accepted, and when pruning or syncing from peers the last accepted block may not be stored (F33)."
  },
  {
   "property": "C47",
   "status": "partial",
   "theorems": [
    "Verif.State.C47_pruned_read_back_partial",
    "Verif.State.C47_violated"
   ],
   "note": "Everything but the deploy/replace kind in the first kept block; the code violates that (witness)."
  },
  {
   "property": "C48",
   "status": "partial",
   "theorems": [
    "Verif.Events.C48_query_during_insertion_partial",
    "Verif.Events.C48_violated"
   ],
   "note": "holds unless the block ends a range of the aggregate filter; violated there"
  },
  {
   "property": "C49",
   "status": "partial",
   "theorems": [
    "Verif.Events.C49_sessions_partial",
    "Verif.Events.C49_fixed_partial",
    "Verif.Events.C49_start_violated",
    "Verif.Events.C49_end_violated",
    "Verif.Events.C49_beyond_violated",
    "Verif.Events.C49_wide_violated"
   ],
   "note": "archive mode; holds for ranges that do not separate the pre-latest from the pre-confirmed block and do not reach above the pre-confirmed block; violated for the others"
  },
  {
   "property": "C50",
   "status": "proved",
   "theorems": [
    "Verif.Events.TokenText.C50_token_round_trip",
    "Verif.Events.TokenText.C50_token_injective",
    "Verif.Events.TokenText.C50_accepted_in_bounds"
   ],
   "note": ""
  },
  {
   "property": "C51",
   "status": "partial",
   "theorems": [
    "Verif.Crypto.C51_accepts",
    "Verif.Crypto.C51_sound_partial",
    "Verif.Crypto.C51_infinity",
    "Verif.Crypto.C51_violated"
   ],
   "note": "Every valid signature is accepted; what is accepted is valid unless the nonce point is the point at infinity, and that case is exactly characterised (F13)."
  },
  {
   "property": "C52",
   "status": "proved",
   "theorems": [
    "Verif.Crypto.C52_pedersen"
   ],
   "note": "The 7905 precomputed points of the program are checked by kernel evaluation of a certificate; that the five base points are the published ones is not claimed beyond their coordinates in the specification."
  },
  {
   "property": "C53",
   "status": "partial",
   "theorems": [
    "Verif.Commit.C53_batch_partial",
    "Verif.Commit.C53_violated"
   ],
   "note": "Proved for batches without migrated classes; merging drops the migrated classes (F16)."
  },
  {
   "property": "C54",
   "status": "partial",
   "theorems": [
    "Verif.Cons.C54_active",
    "Verif.Cons.C54_finalized_partial",
    "Verif.Cons.C54_kept_partial",
    "Verif.Cons.C54_window",
    "Verif.Cons.C54_bounded",
    "Verif.Cons.C54_violated",
    "Verif.Cons.C54_vote_violated",
    "Verif.Cons.C54_next_violated",
    "Verif.Cons.C54_messages"
   ],
   "note": "In every run for engines at work and for the bound on memory; the rest for runs in which peers send no messages above an unsettled height and decisions come in order. The code enforces neither: F20."
  },
  {
   "property": "C55",
   "status": "partial",
   "theorems": [
    "Verif.Proposals.C55_exact",
    "Verif.Proposals.C55_partial",
    "Verif.Proposals.C55_violated",
    "Verif.Proposals.C55_stuck"
   ],
   "note": "Exact condition; holds while nobody proposes far ahead. One part for a far height makes the node ignore the current height: F21."
  },
  {
   "property": "C56",
   "status": "partial",
   "theorems": [
    "Verif.Cons.C56_in_order",
    "Verif.Cons.C56_isolated",
    "Verif.Cons.C56_reassembled",
    "Verif.Cons.C56_mixed_violated"
   ],
   "note": "Order, duplicates and isolation in full for streams with one writer. Streams are keyed by height and round only, so another peer can write into one: F22."
  },
  {
   "property": "C57",
   "status": "partial",
   "theorems": [
    "Verif.Cons.C57_retry_violated",
    "Verif.Cons.C57_duplicate"
   ],
   "note": "Violated in general: a retry goes on with the message ids of the failed attempt, and no receiver can put it together (F22). Messages past the end of a stream are ignored."
  },
  {
   "property": "C58",
   "status": "partial",
   "theorems": [
    "Verif.Proposals.C58_accepted",
    "Verif.Proposals.C58_kind",
    "Verif.Proposals.C58_origin",
    "Verif.Proposals.C58_documented",
    "Verif.Proposals.C58_last_violated"
   ],
   "note": "Exact characterisation of what is accepted; batches after the closing part are accepted too (F23)."
  },
  {
   "property": "C59",
   "status": "partial",
   "theorems": [
    "Verif.Proposals.C59_accepted",
    "Verif.Proposals.C59_refused",
    "Verif.Proposals.C59_deferred_partial",
    "Verif.Proposals.C59_lost_violated",
    "Verif.Proposals.C59_stale_violated",
    "Verif.Proposals.C59_round_violated",
    "Verif.Proposals.C59_init"
   ],
   "note": "Exact for a parent known from the start, and the same outcome for every later moment except between block info and first batch, where every proposal is lost; leftovers and lower rounds are also violations (F24)."
  },
  {
   "property": "C60",
   "status": "partial",
   "theorems": [
    "Verif.Cons.C60_stream_violated",
    "Verif.Cons.C60_stream_partial",
    "Verif.Proposals.C60_deferred_violated",
    "Verif.Proposals.C60_parts_partial",
    "Verif.Proposals.C60_number_violated",
    "Verif.Proposals.C60_parent_violated"
   ],
   "note": "Parts alone cannot end the task if the heights in stream and block info agree and are block numbers. Five ways to end it are proved: F25."
  },
  {
   "property": "C61",
   "status": "partial",
   "theorems": [
    "Verif.Proposals.C61_kept_partial",
    "Verif.Proposals.C61_replaced_violated",
    "Verif.Proposals.C61_number_violated",
    "Verif.Proposals.C61_classes_violated",
    "Verif.Proposals.C61_empty_violated"
   ],
   "note": "The kept block is that of the last report, with checked block info, matching commitment and no class missing; number, extra classes, empty blocks and replacement are violated (F26)."
  },
  {
   "property": "C62",
   "status": "proved",
   "theorems": [
    "Verif.Sync.C62_secured",
    "Verif.Sync.C62_complete",
    "Verif.Sync.C62_progress"
   ],
   "note": "Over all histories of runs, interruptions, peers and checkpoints of one L1 chain. Assumes the block hash binds number, parent and body (Binding). C62_progress is stated without the table of known legacy hashes: with it, a tracked header of a listed number need not bind its hash, so a later insert can collide."
  },
  {
   "property": "C63",
   "status": "partial",
   "theorems": [
    "Verif.Sync.C63_partial",
    "Verif.Sync.C63_violated"
   ],
   "note": "Holds unless a checkpoint differs from the stored header of its number; then the rollback starts at the checkpoint and leaves the higher blocks of the losing branch (F27)."
  },
  {
   "property": "C64",
   "status": "partial",
   "theorems": [
    "Verif.Sync.C64_headers",
    "Verif.Sync.C64_blocks",
    "Verif.Sync.C64_completes",
    "Verif.Sync.C64_no_panic",
    "Verif.Sync.C64_items",
    "Verif.Sync.C64_diff",
    "Verif.Sync.C64_events",
    "Verif.Sync.C64_events_partial",
    "Verif.Sync.C64_events_violated",
    "Verif.Sync.C64_events_silent_violated",
    "Verif.Sync.C64_size_violated",
    "Verif.Sync.C64_counts"
   ],
   "note": "Proved for headers, transactions, classes and state diffs over all replies. Events: the task may panic (F28). Size: entries without changes are not counted (F28)."
  },
  {
   "property": "C65",
   "status": "partial",
   "theorems": [
    "Verif.Block.C65_header",
    "Verif.Block.C65_exact",
    "Verif.Block.C65_accepts",
    "Verif.Block.C65_final",
    "Verif.Block.C65_sequencer_violated"
   ],
   "note": "Full for the headers that peers send (C65_final) and for the check of gateway blocks (C65_header), relative to explicit collisions. Missing: the sequencer address of old mainnet blocks is not bound (F29)."
  },
  {
   "property": "C66",
   "status": "partial",
   "theorems": [
    "Verif.Block.C66_root",
    "Verif.Block.C66_transactions",
    "Verif.Block.C66_signature",
    "Verif.Block.C66_events",
    "Verif.Block.C66_events_grouped",
    "Verif.Block.C66_receipts",
    "Verif.Block.C66_receipts_violated"
   ],
   "note": "Events since 0.13.2 and transactions since 0.13.4 are fully bound. Missing: L2 gas and execution resources of receipts, some signatures of old versions (F29)."
  },
  {
   "property": "C67",
   "status": "partial",
   "theorems": [
    "Verif.Block.C67_agree",
    "Verif.Block.C67_commitments",
    "Verif.Block.C67_accepts",
    "Verif.Block.C67_receipts_violated"
   ],
   "note": "Proved since 0.13.2 in what the commitments cover. Missing: before 0.13.2 nothing binds receipts (F29)."
  },
  {
   "property": "C68",
   "status": "partial",
   "theorems": [
    "Verif.Block.C68_hash",
    "Verif.Block.C68_only",
    "Verif.Block.C68_verify",
    "Verif.Block.C68_verify_partial",
    "Verif.Block.C68_peer",
    "Verif.Block.C68_legacy_violated",
    "Verif.Block.C68_deploy_violated",
    "Verif.Block.C68_old_violated",
    "Verif.Block.C68_address",
    "Verif.Block.C68_modes"
   ],
   "note": "Full for calculate_hash and for every transaction without a legacy hash; the transactions of the first blocks are bound only in what their legacy hash covers, the class and salt of a deploy transaction from the gateway are not bound, and peers cannot serve transactions with legacy hashes (F30)."
  },
  {
   "property": "C69",
   "status": "proved",
   "theorems": [
    "Verif.Body.C69_store",
    "Verif.Body.C69_events",
    "Verif.Body.C69_purge",
    "Verif.Body.C69_lookup",
    "Verif.Body.C69_receipt",
    "Verif.Body.C69_unique"
   ],
   "note": ""
  },
  {
   "property": "C70",
   "status": "partial",
   "theorems": [
    "Verif.Body.C70_track",
    "Verif.Body.C70_agree",
    "Verif.Body.C70_receipts_violated",
    "Verif.Body.C70_checkpoint_partial",
    "Verif.Body.C70_checkpoint_violated",
    "Verif.Body.C70_header_violated",
    "Verif.Body.C70_transactions_violated"
   ],
   "note": "Full for transactions and events of blocks after the checkpoint. Receipts are not checked; up to the checkpoint events are stored by position, which is wrong for blocks where a transaction has none; blocks read as empty while syncing (F31)."
  },
  {
   "property": "C71",
   "status": "partial",
   "theorems": [
    "Verif.Body.C71_next",
    "Verif.Body.C71_resume_partial",
    "Verif.Body.C71_empty_violated",
    "Verif.Body.C71_events_partial",
    "Verif.Body.C71_events_violated",
    "Verif.Body.C71_last_violated"
   ],
   "note": "Full for chains where every block has transactions. A block without any makes the next run fail for good, and events are not resumed after a restart or for the last block (F32)."
  },
  {
   "property": "C72",
   "status": "partial",
   "theorems": [
    "Verif.Head.C72_feed_partial",
    "Verif.Head.C72_removal_violated",
    "Verif.Head.C72_lost_violated"
   ],
   "note": "Full while the connection holds. Removals and logs during an outage are lost (F34)."
  },
  {
   "property": "C73",
   "status": "partial",
   "theorems": [
    "Verif.Head.C73_system_partial",
    "Verif.Head.C73_head_partial",
    "Verif.Head.C73_follows_partial",
    "Verif.Head.C73_restart_violated",
    "Verif.Head.C73_unlinked_violated",
    "Verif.Head.C73_finalized_violated",
    "Verif.Head.C73_number_violated",
    "Verif.Head.C73_reorg_point",
    "Verif.Head.C73_beyond_cache",
    "Verif.Head.C73_bulk",
    "Verif.Head.C73_bulk_complete",
    "Verif.Head.C73_bulk_rounds",
    "Verif.Head.C73_no_false_reorg"
   ],
   "note": "Full for nodes that keep all blocks when the producer is started again with no events in the channel. Otherwise a second reorg or a duplicate stops the sync, or a block is stored on another parent (F35)."
  },
  {
   "property": "C74",
   "status": "partial",
   "theorems": [
    "Verif.Head.C74_replay",
    "Verif.Head.C74_reorg",
    "Verif.Head.C74_committed_partial",
    "Verif.Head.C74_refused",
    "Verif.Head.C74_commit_violated"
   ],
   "note": "Full when commits succeed. A failed commit is notified all the same (F36)."
  },
  {
   "property": "C75",
   "status": "partial",
   "theorems": [
    "Verif.Class.C75_class_hash",
    "Verif.Class.C75_has_hash",
    "Verif.Class.C75_parts",
    "Verif.Class.C75_official_partial",
    "Verif.Class.C75_escape_violated",
    "Verif.Class.C75_sierra_official"
   ],
   "note": "Full for what a hash stands for. The hash is not that of the network for Cairo 0 classes with characters from U+007F to U+0FFF (F37)."
  },
  {
   "property": "C76",
   "status": "partial",
   "theorems": [
    "Verif.Exec.C76_storage",
    "Verif.Exec.C76_nonce_partial",
    "Verif.Exec.C76_class_hash_partial",
    "Verif.Exec.C76_nonce_masked",
    "Verif.Exec.C76_class_hash_masked",
    "Verif.Exec.C76_running_partial",
    "Verif.Exec.C76_started",
    "Verif.Exec.C76_compiled_partial",
    "Verif.Exec.C76_classes_partial",
    "Verif.Exec.C76_declared_partial",
    "Verif.Exec.C76_close_partial",
    "Verif.Exec.C76_nonce_violated",
    "Verif.Exec.C76_class_hash_violated",
    "Verif.Exec.C76_stale_violated",
    "Verif.Exec.C76_gap_violated",
    "Verif.Exec.C76_migrated_violated",
    "Verif.Exec.C76_rollback_violated",
    "Verif.Exec.C76_history_violated",
    "Verif.Exec.C76_replaced_violated",
    "Verif.Exec.C76_migration_violated"
   ],
   "note": "Full for storage when the executor is created. Nonces and contract classes are wrong if the last decided block that touches the contract does not set them; other gaps in F38 and F39."
  },
  {
   "property": "C77",
   "status": "partial",
   "theorems": [
    "Verif.Exec.C77_cache_partial",
    "Verif.Exec.C77_declared",
    "Verif.Exec.C77_shared_partial",
    "Verif.Exec.C77_reorg_violated",
    "Verif.Exec.C77_rollback_violated"
   ],
   "note": "Full without reorganisations; entries survive a reorganisation (F40), and rolled back declarations get in through consensus (F38)."
  },
  {
   "property": "C78",
   "status": "partial",
   "theorems": [
    "Verif.Avail.C78_get_class_partial",
    "Verif.Avail.C78_get_class_at_partial",
    "Verif.Avail.C78_hash",
    "Verif.Avail.C78_stable",
    "Verif.Avail.C78_casm",
    "Verif.Avail.C78_repaired",
    "Verif.Avail.C78_mismatch_violated",
    "Verif.Avail.C78_repair_violated",
    "Verif.Avail.C78_replaced_violated",
    "Verif.Avail.C78_casm_violated"
   ],
   "note": "Full for Sierra classes, and for Cairo 0 classes whose computed hash is the declared one. Gaps in F41: other Cairo 0 classes, the repair, classes only seen in replacements, compiled classes."
  },
  {
   "property": "C79",
   "status": "partial",
   "theorems": [
    "Verif.ClassSync.C79_stored",
    "Verif.ClassSync.C79_stored_reach",
    "Verif.ClassSync.C79_complete_partial",
    "Verif.ClassSync.C79_honest",
    "Verif.ClassSync.C79_blame",
    "Verif.ClassSync.C79_swallowed_violated",
    "Verif.ClassSync.C79_ends_early_violated",
    "Verif.ClassSync.C79_mishashed_violated",
    "Verif.ClassSync.C79_tracked",
    "Verif.ClassSync.C79_tracked_blame",
    "Verif.ClassSync.C79_serve",
    "Verif.ClassSync.C79_serve_answers",
    "Verif.ClassSync.C79_tracked_deployed_violated",
    "Verif.ClassSync.C79_wire_sierra",
    "Verif.ClassSync.C79_wire_cairo_partial",
    "Verif.ClassSync.C79_panic_violated",
    "Verif.ClassSync.C79_expected"
   ],
   "note": "What is stored, who is blamed and that honest peers never cause an error: full. That a run without an error is complete is false (F42): proved for runs whose streams did not end early. Cairo 0 classes on the wire: exactly those with offsets of 64 bits and programs up to 4 MiB."
  },
  {
   "property": "C80",
   "status": "partial",
   "theorems": [
    "Verif.Fee.C80_terminates",
    "Verif.Fee.C80_no_panic",
    "Verif.Fee.C80_sufficient",
    "Verif.Fee.C80_near",
    "Verif.Fee.C80_estimate",
    "Verif.Fee.C80_own_limit",
    "Verif.Fee.C80_balance_violated",
    "Verif.Fee.C80_revert_violated",
    "Verif.Fee.C80_covered",
    "Verif.Fee.C80_several",
    "Verif.Fee.C80_answers"
   ],
   "note": "Termination, sufficiency, nearness, state and order of several transactions: full, for an arbitrary executor that depends only on state and limit. That a transaction that runs gets an answer is false (F43). C80_no_panic needs that a transaction uses no more than its limit or does not run out of gas with larger ones."
  },
  {
   "property": "C81",
   "status": "partial",
   "theorems": [
    "Verif.Trace.C81_answer",
    "Verif.Trace.C81_same",
    "Verif.Trace.C81_no_lost_call",
    "Verif.Trace.C81_lost",
    "Verif.Trace.C81_once",
    "Verif.Trace.C81_kept",
    "Verif.Trace.C81_failed_run_violated",
    "Verif.Trace.C81_error_kept_violated",
    "Verif.Trace.C81_base",
    "Verif.Trace.C81_base_next",
    "Verif.Trace.C81_pre_latest_violated"
   ],
   "note": "Answers, sharing and the absence of lost calls: full, over all interleavings. That a failed run does not affect later calls and that pre-confirmed blocks are run on their parent state are false (F44)."
  },
  {
   "property": "C82",
   "status": "partial",
   "theorems": [
    "Verif.Subs.C82_stream",
    "Verif.Subs.C82_caught_up",
    "Verif.Subs.C82_once",
    "Verif.Subs.C82_follows",
    "Verif.Subs.C82_filter",
    "Verif.Subs.C82_repeat_violated",
    "Verif.Subs.C82_held_back_violated",
    "Verif.Subs.C82_reorg_missed_violated",
    "Verif.Subs.C82_reorg_order_violated",
    "Verif.Subs.C82_failed_commit_violated"
   ],
   "note": "While the chain grows: no gaps, in order, at most one block repeated, over all interleavings; each once if no batch reads an unannounced block. With reorgs: a client of a subscription that keeps up has the chain. Exactly once, promptness, reorg notices and their order are false in general (F45). Channels are unbounded in the model: a subscription that lags by 1024 messages ends without notice."
  },
  {
   "property": "C83",
   "status": "partial",
   "theorems": [
    "Verif.Subs.Status.C83_progress",
    "Verif.Subs.Status.C83_notice_first",
    "Verif.Subs.Status.C83_founded",
    "Verif.Subs.Status.C83_l1_partial",
    "Verif.Subs.Status.C83_l1_violated",
    "Verif.Subs.Status.C83_accepted",
    "Verif.Subs.Status.C83_missed_violated"
   ],
   "note": "Progress: full. Truth: full up to \"accepted on L2\"; \"accepted on L1\" is true if the transaction was never seen pre-confirmed. Arrival: for blocks announced after the channel is open. Truth of \"accepted on L1\" and arrival are false in general (F46)."
  },
  {
   "property": "C84",
   "status": "partial",
   "theorems": [
    "Verif.Subs.Pending.C84_accepted",
    "Verif.Subs.Pending.C84_seen",
    "Verif.Subs.Pending.C84_asked",
    "Verif.Subs.Pending.C84_after_reorg",
    "Verif.Subs.Pending.C84_once",
    "Verif.Subs.Pending.C84_pre_latest_partial",
    "Verif.Subs.Pending.C84_pre_latest_violated",
    "Verif.Subs.Pending.C84_repeat_violated"
   ],
   "note": "Announced blocks, pre-confirmed and candidate transactions, and at most once until the block is announced or taken back: full. Pre-latest blocks: only if nothing was sent for them before. At most once and in the order of the stages is false when the block is handled before older pending data (F47). Updates with finality \"received\" are not modelled."
  },
  {
   "property": "C85",
   "status": "partial",
   "theorems": [
    "Verif.Pend.C85_class",
    "Verif.Pend.C85_nonce_partial",
    "Verif.Pend.C85_nonce_violated",
    "Verif.Pend.C85_storage_partial",
    "Verif.Pend.C85_storage_violated",
    "Verif.Pend.C85_last_update_partial",
    "Verif.Pend.C85_last_update_violated",
    "Verif.Pend.C85_accepted",
    "Verif.Pend.C85_pre_confirmed",
    "Verif.Pend.C85_candidate",
    "Verif.Pend.C85_pre_latest",
    "Verif.Pend.C85_pre_latest_violated",
    "Verif.Pend.C85_stored",
    "Verif.Pend.C85_unknown"
   ],
   "note": "Classes, and transactions of the pre-confirmed block and of the chain: full, for replies that obey the rules of the network (a deployed contract is new, a replaced one exists; one receipt or none for each transaction). Nonces and storage: except for a contract that the pending blocks deploy and replace, for which both queries answer wrongly (F48). Block of the last update: right for cells that the pre-confirmed block writes, wrong for those that only the pre-latest block writes (F48). A pre-latest transaction without receipt makes the node panic (F48). Class definitions are not part of the property."
  },
  {
   "property": "C86",
   "status": "partial",
   "theorems": [
    "Verif.Pend.C86_no_panic",
    "Verif.Pend.C86_given",
    "Verif.Pend.C86_grows",
    "Verif.Pend.C86_current_partial",
    "Verif.Pend.C86_cleared",
    "Verif.Pend.C86_promotion_violated",
    "Verif.Pend.C86_early_violated",
    "Verif.Pend.C86_fork_violated",
    "Verif.Pend.C86_lower_violated"
   ],
   "note": "No panic, given by the gateway for that number, and growth: full. Current: for rounds that bring a higher block or more transactions than all before, if the database has the height of the gateway when the event is handled. False when transactions are executed without new ones, when the event is handled too early, after a reorg (F49)."
  },
  {
   "property": "C87",
   "status": "partial",
   "theorems": [
    "Verif.Commit.C87_proof_partial",
    "Verif.Commit.C87_leaves_partial",
    "Verif.Commit.C87_sound",
    "Verif.Commit.C87_refused",
    "Verif.Commit.C87_large_violated",
    "Verif.Commit.C87_noleaves_violated",
    "Verif.Commit.C87_noclass_violated"
   ],
   "note": "Proofs: full for archive mode; with pruning the nodes are covered by C12 only. Leaf data: if some contract exists at the block. Invalid keys are not refused, leaf data are missing in an empty state, and in pruning mode nothing is answered before the first class (F50)."
  },
  {
   "property": "C88",
   "status": "partial",
   "theorems": [
    "Verif.Rpc.C88_http_partial",
    "Verif.Rpc.C88_http_disabled",
    "Verif.Rpc.C88_ws_partial",
    "Verif.Rpc.C88_order",
    "Verif.Rpc.C88_ws_empty_violated",
    "Verif.Rpc.C88_ws_disabled_violated",
    "Verif.Rpc.C88_notification_violated",
    "Verif.Rpc.C88_id_violated",
    "Verif.Rpc.C88_array_violated"
   ],
   "note": "Full for HTTP but for arrays in a batch, ids outside 64 bits and running notifications; on websockets also but for the empty batch, which ends the connection (F51)."
  },
  {
   "property": "C89",
   "status": "partial",
   "theorems": [
    "Verif.Rpc.Subs.C89_wire_partial",
    "Verif.Rpc.Subs.C89_data",
    "Verif.Rpc.Subs.C89_unsubscribe",
    "Verif.Rpc.Subs.C89_told_partial",
    "Verif.Rpc.Subs.C89_ended",
    "Verif.Rpc.Subs.C89_after_end_violated",
    "Verif.Rpc.Subs.C89_error_lost_violated",
    "Verif.Rpc.Subs.C89_lag_violated"
   ],
   "note": "Order, ids, data and unsubscribing: full. After the answer to unsubscribing at most one data message and two messages in all may still come. Failures while catching up are told; failures and ends of the live part may not be (F52)."
  },
  {
   "property": "C90",
   "status": "partial",
   "theorems": [
    "Verif.Serve.C90_answer",
    "Verif.Serve.C90_servers",
    "Verif.Serve.C90_end",
    "Verif.Serve.C90_class_missing",
    "Verif.Serve.C90_header",
    "Verif.Serve.C90_headers",
    "Verif.Serve.C90_txn_partial",
    "Verif.Serve.C90_txn_violated",
    "Verif.Serve.C90_receipt_partial",
    "Verif.Serve.C90_receipt_violated",
    "Verif.Serve.C90_message_violated",
    "Verif.Serve.C90_counter_violated",
    "Verif.Serve.C90_transactions",
    "Verif.Serve.C90_events",
    "Verif.Serve.C90_classes",
    "Verif.Serve.C90_diffs_partial",
    "Verif.Serve.C90_migrated_violated",
    "Verif.Serve.C90_undeclared_violated"
   ],
   "note": "Answers, headers, transactions by hash, events and classes: full. Receipts lose total data gas, segment arena and long message addresses; blocks that migrate a class, or deploy an undeclared one, cannot be had (F53)."
  },
  {
   "property": "C91",
   "status": "partial",
   "theorems": [
    "Verif.Conn.C91_one_connection",
    "Verif.Conn.C91_inbound_limit_partial",
    "Verif.Conn.C91_inbound_limit_violated",
    "Verif.Conn.C91_outbound_starved_violated",
    "Verif.Conn.C91_outbound_limit_partial",
    "Verif.Conn.C91_outbound_limit_violated",
    "Verif.Conn.C91_useful_kept_partial",
    "Verif.Conn.C91_evicted_banned_partial",
    "Verif.Conn.C91_evicted_returns_violated",
    "Verif.Conn.C91_eviction_timeout_violated",
    "Verif.Conn.C91_whitelist",
    "Verif.Conn.C91_evict_protects",
    "Verif.Conn.C91_evict_always",
    "Verif.Conn.C91_attack_violated",
    "Verif.Conn.C91_siege_violated",
    "Verif.Conn.C91_rate_limit_partial",
    "Verif.Conn.C91_rate_limit_violated",
    "Verif.Conn.C91_reconnect_partial",
    "Verif.Conn.C91_reconnect_violated",
    "Verif.Conn.C91_no_crash_partial",
    "Verif.Conn.C91_crash_violated",
    "Verif.Conn.C91_report_crash_violated"
   ],
   "note": "One connection for each peer, the whitelist and the protected peers: full. The limits hold if no peer is met in both directions and dials are made one at a time; the ban holds for thirty seconds from the end of the connection. Violations: F54-F59."
  },
  {
   "property": "C92",
   "status": "partial",
   "theorems": [
    "Verif.Submit.C92_forwarded_partial",
    "Verif.Submit.C92_forwarded_declare_partial",
    "Verif.Submit.C92_declare_version_twice_violated",
    "Verif.Submit.C92_query_sent_violated",
    "Verif.Submit.C92_refused",
    "Verif.Submit.C92_submit_ok",
    "Verif.Submit.C92_submit_err_partial",
    "Verif.Submit.C92_submit_err_violated",
    "Verif.Submit.C92_only_v3",
    "Verif.Submit.C92_error_codes",
    "Verif.Submit.C92_status",
    "Verif.Submit.C92_received_partial",
    "Verif.Submit.C92_expired_violated",
    "Verif.Submit.C92_evicted_violated",
    "Verif.Submit.C92_messages_partial",
    "Verif.Submit.C92_messages_violated"
   ],
   "note": "What the gateway reads, the meaning of an answer with a hash, the codes and the status: full for transactions without a mark for queries and not declared with versions 1 and 2. A transaction stays known for the lifespan of the cache while few others are touched. Violations: F60-F62."
  },
  {
   "property": "C93",
   "status": "partial",
   "theorems": [
    "Verif.Shown.C93_hex",
    "Verif.Shown.C93_hex_roundtrip",
    "Verif.Shown.C93_hex_read_partial",
    "Verif.Shown.C93_hex_read_violated",
    "Verif.Shown.C93_transaction_partial",
    "Verif.Shown.C93_transaction_hash_partial",
    "Verif.Shown.C93_data_gas_violated",
    "Verif.Shown.C93_proof_facts_violated",
    "Verif.Shown.C93_receipt",
    "Verif.Shown.C93_resources_partial",
    "Verif.Shown.C93_message_hash",
    "Verif.Shown.C93_message_unique",
    "Verif.Shown.C93_header_partial",
    "Verif.Shown.C93_header_violated",
    "Verif.Shown.C93_header_unchecked_violated",
    "Verif.Shown.C93_block",
    "Verif.Shown.C93_state_update_partial"
   ],
   "note": "Numbers, receipts, blocks and message hashes in full. Transactions of version 3 from 0.8 on and with a bound for data gas; headers from 0.10 on and since Starknet 0.13.2; migrated classes from 0.10 on. Violations: F63-F65."
  },
  {
   "property": "C94",
   "status": "partial",
   "theorems": [
    "Verif.Open.C94_upgraded_once",
    "Verif.Open.C94_unsupported",
    "Verif.Open.C94_existing_iff",
    "Verif.Open.C94_new_iff",
    "Verif.Open.C94_remembers",
    "Verif.Open.C94_mode_fixed",
    "Verif.Open.C94_history_conflict",
    "Verif.Open.C94_tries_conflict_partial",
    "Verif.Open.C94_tries_conflict_violated",
    "Verif.Open.C94_restart",
    "Verif.Open.C94_crash_at_creation_violated",
    "Verif.Open.C94_crash_before_tries_violated",
    "Verif.Open.C94_kept_partial",
    "Verif.Open.C94_young_history_violated",
    "Verif.Open.C94_bounded_l2",
    "Verif.Open.C94_bounded_l1",
    "Verif.Open.C94_archive",
    "Verif.Open.C94_no_panic"
   ],
   "note": "Proved for all schemas, files and histories: the schema, the modes and default restarts. Partial: a refused start leaves the database alone only if it is the history that conflicts; blocks are kept unless the history is reduced before it is complete. Violations: F66-F68."
  },
  {
   "property": "C95",
   "status": "partial",
   "theorems": [
    "Verif.Reqs.C95_at_most_once",
    "Verif.Reqs.C95_accounted",
    "Verif.Reqs.C95_answered_when_closed",
    "Verif.Reqs.C95_answered_when_idle_partial",
    "Verif.Reqs.C95_capacity_violated",
    "Verif.Reqs.C95_capacity_drops",
    "Verif.Reqs.C95_retry_violated",
    "Verif.Reqs.C95_classes_violated",
    "Verif.Reqs.C95_stream_has_request",
    "Verif.Reqs.C95_panic_violated",
    "Verif.Reqs.C95_no_panic_partial",
    "Verif.Reqs.C95_first_outcome_partial",
    "Verif.Reqs.C95_responses_roundtrip",
    "Verif.Reqs.C95_bad_response",
    "Verif.Reqs.C95_truncated_violated"
   ],
   "note": "Proved over all runs: at most one outcome; none is forgotten; all are answered once the connections are gone. Partial: answered when idle if no stream is dropped at the limit and no stream fails to open with an I/O error; no panic if no stream times out between writing the request and the handler taking note. Violations: F69-F72."
  },
  {
   "property": "C96",
   "status": "partial",
   "theorems": [
    "Verif.Rate.C96_rate",
    "Verif.Rate.C96_limit_partial",
    "Verif.Rate.C96_limit_violated",
    "Verif.Rate.C96_unlimited_violated",
    "Verif.Rate.C96_read_bytes",
    "Verif.Rate.C96_read_call",
    "Verif.Rate.C96_write_call",
    "Verif.Rate.C96_rested",
    "Verif.Rate.C96_socket_wakes",
    "Verif.Rate.C96_stall_violated",
    "Verif.Rate.C96_waste_violated",
    "Verif.Rate.C96_empty_violated",
    "Verif.Rate.C96_no_panic_partial",
    "Verif.Rate.C96_options"
   ],
   "note": "Proved over all runs: the bound on every window with the interval that the limiter uses; bytes in order; the two options. Partial: the configured limit is kept if it divides 10^9; no panic for non-empty buffers. Violations: F73-F76."
  },
  {
   "property": "C97",
   "status": "partial",
   "theorems": [
    "Verif.Gate.C97_asked",
    "Verif.Gate.C97_submitted",
    "Verif.Gate.C97_once",
    "Verif.Gate.C97_read",
    "Verif.Gate.C97_endless_violated",
    "Verif.Gate.C97_answer",
    "Verif.Gate.C97_key",
    "Verif.Gate.C97_backoff_violated",
    "Verif.Gate.C97_refresh_partial",
    "Verif.Gate.C97_refresh_notes",
    "Verif.Gate.C97_refresh_violated",
    "Verif.Gate.C97_stale_violated"
   ],
   "note": "Proved: what the URL says, submitting once, when calls are sent again and what their result is, the key. Partial: refreshes while building the HTTP client works. Violations: F77-F80."
  },
  {
   "property": "C98",
   "status": "partial",
   "theorems": [
    "Verif.Vals.C98_contract_partial",
    "Verif.Vals.C98_malformed_partial",
    "Verif.Vals.C98_truncated_violated",
    "Verif.Vals.C98_length_violated",
    "Verif.Vals.C98_set",
    "Verif.Vals.C98_validators",
    "Verif.Vals.C98_power",
    "Verif.Vals.C98_agree",
    "Verif.Vals.C98_member",
    "Verif.Vals.C98_round_robin",
    "Verif.Vals.C98_proposer_partial",
    "Verif.Vals.C98_rotation_violated",
    "Verif.Vals.C98_order_violated",
    "Verif.Vals.C98_priority_violated",
    "Verif.Vals.C98_panic_violated",
    "Verif.Vals.C98_latest_violated"
   ],
   "note": "Proved: the set of validators of a node that starts, agreement between nodes, membership of the proposer, turns of the default selector. Partial: answers of contracts whose numbers fit 64 bits; the proposer if the least address votes. Violations: F81-F85."
  },
  {
   "property": "C99",
   "status": "partial",
   "theorems": [
    "Verif.Comp.C99_result",
    "Verif.Comp.C99_same",
    "Verif.Comp.C99_no_deadlock",
    "Verif.Comp.C99_ends",
    "Verif.Comp.C99_version",
    "Verif.Comp.C99_panic",
    "Verif.Comp.C99_libfuncs",
    "Verif.Comp.C99_size_partial",
    "Verif.Comp.C99_size_violated",
    "Verif.Comp.C99_old_versions_violated",
    "Verif.Comp.C99_reaped_partial",
    "Verif.Comp.C99_final",
    "Verif.Comp.C99_zombie_violated"
   ],
   "note": "Proved: results under all schedules, no deadlock, bounded length, choice of compiler, panics, the list of library functions. Partial: the size, if it is not an option; that the child is waited for, if it reads the whole class. Violations: F86-F88."
  }
 ]
}