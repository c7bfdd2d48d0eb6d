# Formal model of eqlabs/pathfinder in Lean 4

Source: `/repo` (Rust, pinned commit, read as text, never built). Model: `/verif/lean/Verif/**`.

## 1. Layout

* `Verif/<Area>/Model*.lean`  – definitions that transcribe Rust functions; each cites file and lines and
  states its simplifications.
* `Verif/<Area>/Spec.lean`    – small independent specifications (finite maps, folds over histories, ...).
* `Verif/<Area>/Lemmas*.lean` – auxiliary lemmas.
* `Verif/<Area>/Props.lean`   – the property theorems (named in `MANIFEST.json`), each with an `example` showing
  that its hypotheses are met by a concrete non-trivial case.

## 2. Trusted base

* Lean 4.33.0 kernel; Mathlib (single modules) for number theory and elliptic-curve group law.
* Axioms: at most `propext`, `Classical.choice`, `Quot.sound` (checked with `#print axioms`).
  No `sorry`, no own axioms, no `native_decide`/`bv_decide`.
* The reading of the Rust code by hand: the model is a transcription, not extracted.
* External components are *parameters* of the model, with the assumptions written as hypotheses:
  hash functions (Pedersen, Poseidon permutation, SipHash, Keccak) are arbitrary functions, with
  "no collision" hypotheses only where stated; zstd is an abstract round-tripping codec; SQLite tables are
  lists of rows with the documented meaning of the SQL statements used (`SELECT .. ORDER BY .. LIMIT 1`,
  `INSERT OR REPLACE`, `DELETE .. WHERE`), and transactions are atomic; Rust `HashMap`s are association lists
  whose iteration order is arbitrary (theorems quantify over the order).
* Not modelled: tokio scheduling, networking, JSON-RPC transport, logging/metrics, the Cairo VM
  (blockifier), malachite's internal Tendermint state machine, Cairo compilers, file-system behaviour apart
  from "a crash leaves a prefix of what was appended".

## 3. Plan per property

| Property | Modelled | Proof method |
|---|---|---|
| C01–C03 | `MerkleTree::set/delete_leaf/get` as recursive functions on an inductive node type (bits as `List Bool`) | invariant (well-formed compressed tree of fixed height) + refinement to `Key → Option Value`; canonical form uniqueness gives history independence |
| C04 | `commit_subtree` hash computation | equality with a recursive specification over the content |
| C05, C06, C10 | lazily loaded nodes (`Unresolved`), node storage as index → node map, `commit` with added/removed lists | representation relation between lazily loaded trie + storage and in-memory tree; simulation |
| C07–C09 | `get_proof`, the verification procedure used by RPC clients | induction on tree; soundness from absence of collisions |
| C11 | byte codec of stored nodes | round-trip by case analysis |
| C12–C14 | removal markers, pruning, root tables | invariant over histories |
| C15–C20 | versioned tables as row lists | refinement to fold over the history of state updates |
| C47 | `prune_block` on the versioned tables, `state_update` | row-level characterisation of retained rows |
| C21–C27 | bloom filter bits, transposed aggregate, event paging, continuation tokens, running filter | no-false-negative invariant; pages concatenate by induction on position |
| C28–C32 | byte/hex codecs, 4×u64 Montgomery limbs, binary inversion, Tonelli–Shanks | arithmetic over `Nat` with bounds; primality of P by a Pratt certificate checked in the kernel |
| C32 | Poseidon sponge over an abstract permutation | induction on the list two by two |
| C33–C35, C51, C52 | affine/projective formulas, double-and-add, ECDSA, Pedersen | equality with Mathlib's elliptic curve group; certificates for the tables and for the order of the generator |
| C36, C53 | `update_starknet_state` on stored tries, `merge_state_updates` | refinement to the commitment of an abstract state; merged updates by look-ups |
| C37, C38 | state diff commitment and length, `StateUpdate::apply` | permutation invariance; look-ups |
| C39–C41 | header stages, gap search on a set of stored headers, stage pipelines | induction on streams |
| C42–C43 | integer formulas with explicit u128 overflow | arithmetic |
| C44 | WAL as byte/line sequences | prefix argument |
| C45 | version parse/print | round trip |
| C46 | sync event loop on the block tables | invariant over events |
| C48–C50 | running filter and RPC event queries against stored and pending blocks; token text | invariant over histories; concatenation of pages; round trip |
| C54, C55 | bookkeeping of heights and engines | invariant over runs |
| C56–C61 | proposal streams, message order checks, deferred executions, decisions | refinement of arbitrary schedules to the in-order run |
| C62, C63 | checkpoint and tracking of headers with arbitrary peers | invariant on the stored headers |
| C64 | peer-agnostic block data streams | induction over replies |
| C65–C67 | block hash rules of all versions, commitments, check of a gateway block; hash functions are parameters | injectivity of the encodings; equal hashes give equal values or an explicit collision among the queries made |
| C68 | transaction hashes of all kinds and versions, and the check of a hash | kinds told apart by prefix and version; injectivity of the encodings or an explicit collision |
| C69 | tables of transactions, hashes and events, and all readers | invariant that keys, positions and rows agree |
| C70 | stages that verify and store bodies from peers, after and up to the checkpoint | grouping is a permutation; C66 for agreement; witnesses for receipts and positions |
| C71 | where the sync of bodies resumes | closed form of the tables after n blocks; stuck states for empty blocks |
| C72 | pending updates of the Ethereum client | invariant: what waits and what was passed on, from the events seen |
| C73 | producer, channel and consumer of blocks from the gateway | invariant: draining the channel gives the head and cache of the producer; permutation of downloads; witnesses with restarts |
| C74 | notifications of the consumer | replay of notifications is the stored chain; witness for a failed commit |
| C75 | class hashes, JSON text and preparation of Cairo 0 classes | the JSON printer is injective by a reader for strings and mutual induction; collisions explicit; comparison with Python's printer by lengths |
| C76 | reads through decided blocks and database, the life of a decided block, rollbacks and closing of a proposal | reads refine "the last block that sets it"; invariant over the node's steps; witnesses for each gap |
| C77 | the cache of compiled classes | invariant: an entry says what the chain says; witnesses for reorganisations and rolled back declarations |
| C78 | download, events, tables of classes, reorganisations, repair, and the RPC reads | invariant over all steps: every class of a stored or upcoming block has a definition by the time it is stored; the declared-at column is the first block that introduces the class |
| C79 | the checks of class definitions from peers as stream stages, expectations from the tables, storing, the comparison while tracking, the serving side and the wire format | prefix lemmas for each stage; invariant of the class tables over all histories; induction over the answered blocks; round trip |
| C80 | the limit search over an arbitrary executor (a function of state and limit), the balance bound, estimates and lists of transactions | invariant of the binary search, interval halving for termination; induction over the list |
| C81 | calls of `trace` as threads over a cache that may lose entries, with channels; the block number up to which state is read | invariant over all interleavings; stability of cache entries |
| C82 | the sync task's commits and announcements and one subscription (batches, channels, first message, forwarding) as steps of a schedule; the two event filters | invariant over all schedules; equality of both filters with a specification |
| C83 | the status task, the sync task, pending data, L1 and submissions as steps of a schedule | what each step adds to the stream; evidence in the history for each report; invariant of blocks on the way |
| C84 | the record of updates sent for each block, as a fold over pending data, announced blocks and reorgs | invariant over all inputs; counting updates |
| C85 | conversion and merge of gateway differences, `get`, and the queries that read the merged data over the state tables of `Verif/State` | views of the merged update by induction over the differences; refinement to "the last that says something" |
| C86 | poller, queue, consumer and `get` as a transition system with arbitrary answers of the gateway | invariants over all executions; order of number and count |
| C87 | the query on the database after each block of a history, nodes looked up in the newest tables | rows are never changed or removed (induction over blocks), completeness of `get_proofs` (C07); uniqueness by induction on the path |
| C88 | requests, batches and the loop of a websocket over JSON values; methods return anything | sorting by index undoes every order (permutations); induction over the messages of a connection |
| C89 | the loop of a connection, registry, main and inner task of each subscription as interleaved steps | two invariants by induction over steps; the end of a task for all continuations |
| C90 | `iterate` and the handlers of the server, the conversions, and the client's streams (`Verif.Sync.Feed`) asking an honest server | answers: induction over the loop; end to end: induction over the rounds; state diffs over every history of the database (C20) |
| C91 | the handlers of the connection managing behaviour, the set of peer records, and the swarm as a transition system in which libp2p and the peers do anything | invariants by induction over histories; eviction: properties of the sorted candidates; violations by runs, the attack for every reachable state |
| C92 | the three methods that submit transactions, the JSON of the request, the tracker's cache, the query for a status and for messages | a reader for the request, written independently, gets back the transaction; invariant of the cache over histories; the status as a relation |
| C93 | the writers and readers of hexadecimal text, the JSON of transactions, receipts, events, headers, blocks and state updates at each version | a reader that knows only JSON and the names of the fields, written independently, gets back what is stored; what is not determined by the JSON is shown by pairs of values that look the same |
| C94 | opening the database as the list of states of the file that it passes through, the two options, the migrations as arbitrary partial functions, the pruning of blocks at a start and while syncing | invariants over runs of starts, crashes between any two writes, and work of the node; exact conditions for success; per step, which blocks may go |
| C95 | the request/streaming-response protocol as a transition system: the behaviour's and the handlers' queues, the futures of the streams, the maps of pending requests; the framing of responses | invariants over all runs: where each request is; at most one outcome; refinement of "nothing left to do"; round trip and truncation of frames by induction |
| C96 | a connection with its two limiters, the socket, the task and the clock as a transition system; the limiter's rule (GCRA) in nanoseconds; the options | invariant: permits granted since any time are bounded by the time at which they are paid off; induction over runs; general counterexample runs |
| C97 | each call as the request it builds, the bytes of its URL and body, one attempt as a function of what the network does, the retry loop with its backoff, refreshes of the HTTP client | a reader of URLs as specification, round trip; induction over attempts and refreshes; general counterexamples |
| C98 | the reading of a contract's answer, sets of validators, the configuration, both selectors of proposers as functions with errors and panics | reader as inverse of the Cairo encoding; sorted sets determined by their members; counting over rounds; general counterexamples |
| C99 | both processes, the three pipes and the child's death as a transition system; the child's settings and the choice of the compiler as functions | an invariant that every byte is in one place; a measure that every step decreases; progress in every state |
| C100 | the driver with its queues, timers and log as a function of an arbitrary core, clock and heap; a history of what happened, for the statements | refinement to the core's outcome on the inputs it was given; an invariant that ties waiting timeouts to the history; a count of due timeouts that decreases |
| C101 | the four methods as functions of a database, pending data and an arbitrary library; panics are values | inversion of every step to fields by name; runs as an inductive relation; induction on the list of transactions |
| C102 | the three migrations of the event index on the tables of C27; panics are values | invariant of C27 established by each migration; refinement of the aggregation loop to storing blocks one by one |
| C103 | the migrations of the tables of headers, state updates and classes, from the base schema to the tables of C15-C20 | induction over the rows for the tables of addresses; the invariant of C15 established by the upgrade, so that all its consequences carry over |
| C104 | revision 57: main thread, two channels and a pool of workers as a transition system, with the tables of C69 | invariant: the blocks handed out are, up to order, those queued, worked on, returned or lost; a measure that every step decreases |
| C105 | the gateway's JSON as a tree with parsed strings; readers and writers of reply.rs field by field | an exact characterisation of what is read by a document per kind of transaction; receipts up to the order of fields; round trips |
| C106 | classes as JSON trees; readers and both writers (answer, derived) of class.rs; the types of programs as data with one function that reads and writes them | a relation between documents and classes per type, proved equivalent to reading; round trips; a relation "nothing is lost" by induction over types |
| C107 | the shared status, its two writers with their waiting points, the stored chain and the two readers as a transition system with a history of heads, blocks and rollbacks | invariants over runs that tie the status to the history; witnesses for the ways in which it is wrong |
| C108 | the tables of headers, bodies and transaction hashes with their constraints, the writes, the queries and the block methods as functions of the tables | refinement of the tables to a list of blocks for every history of writes; each method is computed from the list |
| C109 | tasks with their kind and whether they are at a waiting point, the tracker, the phases of the shutdown and a clock as a transition system | invariants over runs; reachability of the exit by construction; witnesses for what is not waited for |
| C110 | the cache with pending entries, the channel and the compiler thread as a transition system, the compiler as a parameter | invariants over runs (where an entry comes from, sizes, each class in one place); witnesses by construction for the queue, retries and panics |
| C111 | errors with their payload, stacks of frames, JSON of errors, errors of the gateway | the documents of the API as tables and the schema as a way to read JSON, written independently; induction over the stack; cases over all errors |
| C112 | compiled classes, how they are read from JSON and written | agreement of two documents field by field and the documented schema as predicates on JSON, written independently; mutual induction over nested lists |
| C113 | the loop that polls for releases, versions and their texts, the order of versions | precedence as semver.org states it and the last release of a history as relations, written independently; induction over responses and over lists of identifiers |
| C114 | traces of the gateway and of the executor as trees, the translation, traces of a block | calls named by paths, agreement call by call as a relation written independently; induction over paths and lists |
| C115 | JSON as a tree, the fields of an object, how calls, traces, blocks and initial reads are written per version | a reader by names of fields and paths, and the required fields of the documents, written independently; induction over paths and lists |
| C116 | the walk over calls, the queues by numbers, the merge in rounds, status and resources of a receipt | all calls of a tree and paths, written independently; permutation by induction over pushes and rounds, sortedness of the queues as invariant |
| C117 | the executor with its queue and results, the lists of the validator, batches, cut and close | executing one by one, written independently; invariant over batches, position by position; all splits by uniqueness |

Properties that cannot be expressed in such a model: none of the list; liveness under real networks and
timing is out of scope of the list.

## 4. Findings

Violations of listed properties found while modelling, each with a kernel-checked witness.

### F1. Two-stage reorg with trie pruning loses live trie nodes (C13, C14)
A reorg to block `t1` re-inserts the trie root of a reverted contract as a row at block `t1` and moves the removal
markers of the old trie's nodes to `t1` (`coalesce_trie_removals`). A later reorg to `t2 < t1` does not touch that
contract when it has no updates in `(t2, head]`, but `purge_block(t1)` deletes the row at `t1`. The lookup falls back to
the older root row, whose nodes carry removal markers, and they are pruned while they are live. The comment in
`crates/pathfinder/src/state/sync/revert.rs` 24-27 ("if there were no changes then there was no root index inserted in
the revert range") is the assumption that fails. `C13_violated` is a concrete history; without pruning (archive mode)
the property holds for all histories (`C13_reorg_keeps_tries_archive`).

### F2. Compiled class hashes of reverted blocks stay in force (C18)
`purge_block` deletes from every table of a reverted block except `casm_class_hashes`, whose rows have no foreign key to
the block. After a reorg the orphaned hash of a class is still the latest one, so `casm_hash`, `state_update` and the
class trie reverse updates of a second reorg read it (`C18_violated`, `C18_read_back_violated`, `C18_reorg_violated`).
The property holds for histories in which no reorg removes a class declaration or migration
(`C18_casm_hash_partial`, `C18_reverse_classes_partial`).

### F3. Reverse class updates pick the oldest compiled class hash (C18)
`reverse_sierra_class_updates` selects the older hash in a scalar subquery without `ORDER BY`/`LIMIT`; with more than
one older row SQLite returns the first. A class migrated twice is reverted to its first hash
(`C18_two_migrations_violated`).

### F4. A retained class replacement is read back as a deployment (C47)
`state_update` reports a class row as a replacement exactly if an older row of the contract exists; `prune_block` deletes
older rows once a newer one exists up to the pruned point. A contract whose class is replaced in the first kept block is
reported as deployed there (`C47_violated`). Everything else is unchanged (`C47_pruned_read_back_partial`).

### F5. Event queries ignore the requested start in pruning mode (C25)
`events` replaces the first block of the query by the earliest stored block whenever blockchain pruning is on, also if the
requested block is later (event.rs, `events`). A page then contains events below the requested start (`C25_violated`), the
block of a continuation token is ignored while its offset is used (`C23_pruning_violated`), and a query without a first
block panics once genesis is pruned (`C25_pruned_panics`).

### F6. A saved event index of an abandoned fork is used after a crash (C27)
The running filter is saved at an orderly shutdown and never removed by a reorg. If after the reorg the new fork has
exactly as many blocks as the saved filter says, and the node crashes, the saved filter is taken as current
(`C27_violated`): events of the replaced blocks are not found. A reorg of genesis leaves the next expected block at 1,
with the same effect (`C27_genesis_violated`). In all other histories the index is complete (`C27_index_complete_partial`).

### F7. Queries during the insertion of the last block of a range miss events (C48)
`upsert_block_event_filters` replaces the shared running filter by an empty one before the transaction that stores the
finished filter commits. A reader in between finds neither (`C48_violated`).

### F8. starknet_getEvents and ranges that touch pending blocks (C49)
Block numbers of the pre-latest and of the pre-confirmed block both become the tag `PreConfirmed`, which stands for both
blocks. So a request that starts at the pre-confirmed block returns events of the pre-latest block (`C49_start_violated`)
and one that ends at the pre-latest block returns events of the pre-confirmed block (`C49_end_violated`). A request that
starts above the pre-confirmed block and has no end returns pending events below its start (`C49_beyond_violated`; the code
checks this only if the end is given). A range that ends above the pre-confirmed block returns no pending events at all, so
that extending a range loses events (`C49_wide_violated`). A page size of zero for pending events returns a token for the
same position (`C26_zero_page`).

### F9. Conversions between affine and projective points drop the infinity flag (C33)
`From<&AffinePoint> for ProjectivePoint` and `From<&ProjectivePoint> for AffinePoint` set `infinity: false` whatever the flag
of the source is. The identity converts to `(0, 0)`, which is not on the curve. Witnesses: `C33_infinity_to_affine_violated`,
`C33_infinity_to_projective_violated`. All conversions of finite points are right (`C33_to_projective`, `C33_to_affine`).

### F10. Signing can return a signature that verification rejects (C34)
`ecdsa_sign_k` only checks `r < 2^251`. It does not check `z < 2^251`, `r != 0`, `s != 0` or `s < 2^251`, which
`ecdsa_verify_inner` demands. Witness `C34_violated`: secret key 1, nonce 1, message `N - gX` give `s = 0`.

### F11. Full-key verification rejects half of all keys (C34)
`ecdsa_verify` compares the second coordinate of the given key with the one that decompression returns. One of every two
opposite keys is thus refused with `PublicKey` for all messages and signatures: `C34_full_key_violated`.

### F12. Verification panics on values not below the curve order (C35)
`ecdsa_verify_inner` unwraps the conversions of `z`, `r` and `s` to scalars before it checks their bounds. `C35_panics_iff`
states exactly when: the key is on the curve and one of the three is at least the order. Witness `C35_violated`.

### F13. Verification accepts an invalid signature when the nonce point is the point at infinity (C51)
`ProjectivePoint::add` of opposite points keeps the coordinates of the first and sets the flag, and the conversion to affine form
ignores the flag (F9). `ecdsa_verify_inner` then compares `r` with the first coordinate of `zw G`. Witness `C51_violated`: key `gX`,
`z = s = N - gX`, `r = gX`. The signer of the key is not impersonated by this alone, but the check is not the textbook one.

### F14. The L2 gas price can overflow, and does not recover from very small values (C42)
`next_l2_gas_price` guards the product `price * delta` with `checked_mul`, but the addition `price + change` afterwards is unchecked, so
it panics (overflow checks are on) for prices near `2^128`: `C42_overflow_violated`. Below the minimum the price rises by `price / 333`,
which is zero for prices below 333, so such a price never reaches the minimum: `C42_stuck_violated`. From 333 on it does
(`C42_recovers`).

### F15. The L1 gas price average saturates, and the storage limit zero keeps one sample (C43)
`get_average_prices` adds with `saturating_add` and then divides, so samples near `2^128` have an average far below each of them:
`C43_saturation_violated`. `add_sample` pops before it pushes, so a limit of zero keeps one sample: `C43_limit_violated`. The addition of
the maximum gap to the newest timestamp is unchecked and panics on overflow: `C43_average_panics_iff`.

### F16. Merging state updates drops the migrated classes (C53)
`merge_state_updates` (sync/state_updates.rs:205-236) merges contracts, system contracts and declared classes but not
`migrated_compiled_classes`, although `multi_block::StateUpdateData` has the field and `update_starknet_state` uses it. A batch that
contains a migration gets the class commitment of a state without it, so checkpoint sync rejects the honest peer with a state root
mismatch: `C53_violated`. Without migrations merging is correct for every batch: `C53_batch_partial`.

### F17. `StateUpdateData` does not count migrated classes (C37)
`StateUpdateData::state_diff_length` and `is_empty` leave out `migrated_compiled_classes`, which `StateUpdate::state_diff_length` and
the state diff commitment include. `l2_update` (state/sync.rs:1463, 1492) converts the update to `StateUpdateData` before it takes the length
for the stored header, although the block hash was verified with the other length (state/sync/l2.rs:881), and the validator uses it for
the block hash of its own blocks (validator/src/lib.rs:866). The length is too small by the number of migrated classes for every update:
`C37_length_data_violated`, `C37_empty_violated`.

### F18. `StateUpdate::apply` forgets deployments and migrations (C38)
If the older update deploys a contract and the newer one replaces its class, the merged update says "replaced", so that the default zero for
nonce and storage of a deployed contract is gone: `find_nonce` and `find_storage_value` of the pending data return nothing, and the database does not know
the contract (`C38_nonce_violated`, `C38_storage_violated`). `migrated_compiled_classes` of the newer update are not merged
(`C38_migrated_violated`).

### F19. Consensus recovery loses readable logs (C44)
A crash in the middle of an append leaves a torn last line. `recover_incomplete_heights` stops with an error at the first file that has one, and
`recover_inner` (consensus/src/lib.rs:505) goes on with nothing: all unfinished heights and the last decision are forgotten, although every other log
is intact (`C44_torn_violated`). An append after such a crash is glued to the torn line, and the log is unreadable for good (`C44_glued_violated`).
A log without entries of a height that is committed counts as unfinished (`C44_empty_violated`). An address with a dash in its text loses
the height in the file name (`C44_name_violated`; addresses are printed in hex, so this does not happen today). With a history depth of 0, which the
command line allows, the log of the last decision can be deleted while the node still needs it (`C44_restart_violated`).

### F20. A vote for a far height drops undecided heights (C54)
A peer's vote or proposal starts an engine for any height above the last decision (consensus_task.rs:330-368); nothing bounds it from above. On the next
decision `prune_old_engines` drops every engine more than the history depth below the highest one, decided or not, deletes its log and reports every height below
as finalised: `C54_violated`. The deleted log may hold votes of this node for an undecided height, which then starts afresh: `C54_vote_violated`.
A decision that arrives late moves `next_height` past a height that is not decided: `C54_next_violated`.

### F21. One part for a far height silences the current height (C55)
`is_outdated_p2p_event` takes the highest proposal being received for the "latest finalized" height (p2p_task.rs:946). The entry is made when the first part
arrives, before anything is decided, and leaves only when a part is refused or that height is decided. A single block info for a height more than the
history depth (default 10) ahead makes the node drop every vote and proposal for the height in progress and lower the score of their senders: `C55_violated`,
and it stays so whatever else happens: `C55_stuck`.

### F22. Streams of proposals: retries and foreign writers (C56, C57)
When gossip fails half way, `gossip_retry` sends all parts again through `create_outgoing_proposal_message`, which goes on with the next message id of the
stream. A receiver that missed the start never delivers anything beyond the gap, and one that has it gets the first parts twice: `C57_retry_violated` says that in no
case the proposal is received as sent. Incoming streams are keyed by height and round only; a message of another peer with the next id is delivered in
place of the real one: `C56_mixed_violated`.

### F23. Batches are accepted after the closing part (C58)
`accept_transaction_batch` does not look at `has_fin` (proposal_validator.rs:104-135), although the closing part "must be last": `C58_last_violated`.

### F24. Proposals lost by deferral (C59)
If the parent is decided after the block info and before the first batch has been handled, the block info stays unchecked and there is no deferred entry. The
first batch then finds the wrong stage and the proposal is dropped. Every good proposal is lost in this window: `C59_lost_violated`. After a recoverable error
only the list of parts is dropped, not the deferred transactions; they are executed in front of the next proposal for the same height and round, which then fails:
`C59_stale_violated`. Of several deferred rounds only the last is executed, the others are dropped: `C59_round_violated`.

### F25. Peers can stop a node (C60)
* A message in a stream this node is sending itself reaches a panic: `C60_stream_violated`.
* A complete proposal that is not valid and was deferred ends the task when its parent is decided, because `execute_deferred_for_next_height` passes recoverable
  errors on with `?`: `C60_deferred_violated`. With a known parent the same proposal is just skipped.
* A stream whose height is not a block number: a batch is a fatal error in `should_defer_validation`, the closing part a panic in `create_empty_block`:
  `C60_number_violated`. Only the height in the block info is checked.
* The heights of stream and block info are never compared. Block info for a far height waits in a stream for the next height; when that one's parent is
  decided, `validate_block_info_timestamp` panics on the missing parent: `C60_parent_violated`.
The task is critical: when it ends, the node shuts down (main.rs:516-518).

### F26. The kept block need not be the one agreed on (C61)
* A second proposal for the same height and round replaces the block of the first, which may be the one that is decided: `C61_replaced_violated`.
* A proposal for another block number is kept for the height of its stream: `C61_number_violated`.
* `rollback_to_transaction` does not remove the classes declared by the transactions it removes (validator/lib.rs:693-696), so they are stored with the block:
  `C61_classes_violated`.
* The commitment of an empty proposal is never checked, nor is its block info if the parent is not known yet: `C61_empty_violated`.

### F27. A contradicted checkpoint leaves blocks of the losing branch above it (C63)
When the stored header of the checkpoint's number has another hash, `CheckpointAnalysis::handle` rolls back from the *checkpoint* number
down to the anchor, not from the latest stored block (checkpoint.rs, `HashMismatchWithLocalChain`; compare `ExceedsLocalChain`, which
starts at the latest block). Blocks of the losing branch above the checkpoint stay stored; the run ends by reading the latest header
and tracking goes on from the losing branch: `C63_violated`.

### F28. A peer can end the event stream or fill a state diff with empty entries (C64)
* `event_stream` keeps the current transaction hash from block to block but starts each block with an empty list. If the first event of a block has the
  hash of the last event before it, `events.last_mut().expect("not empty")` panics (peer_agnostic.rs:1473). The task dies, the stream ends without an error,
  and `sync_events` reports success: `C64_events_violated`. Exactly these replies do it: `C64_events_partial`.
* If the first event count cannot be read the stream ends without an error, unlike the other streams: `C64_events_silent_violated`.
* A contract diff without changes costs nothing, so a peer can add any number of contract entries to a block, and the state diff commitment ignores
  them: `C64_size_violated`.

### F29. What a block hash does not bind (C65, C66, C67)
* Old blocks of the main network are tried with a second sequencer address. A header whose hash was made with that address is accepted with any
  sequencer address, and the address from the gateway is stored: `C65_sequencer_violated`.
* The receipt commitment covers the transaction hash, fee, messages, status and L1 gas. L2 gas, the index, steps and builtins of a receipt are free:
  `C66_receipts_violated`.
* Before 0.13.2 nothing binds receipts. A gateway can serve any fees, messages and statuses for such a block, the check passes, and the node computes and
  later serves a receipt commitment for them: `C67_receipts_violated`.
* Signatures: before 0.11.1 only those of invoke transactions are hashed, and in 0.13.2 and 0.13.3 an empty signature and a single zero are the same
  (`C66_signature`). These two follow the protocol.

### F30. Transactions of the first blocks (C68)
* `verify_hash` accepts the hashes of the first blocks for every transaction, whatever its block. That hash covers only the contract, the selector and the
  arguments, so that a call of an account and a message from L1 pass the check for the same hash, with any fee and nonce: `C68_legacy_violated`.
* The class and the salt of a deploy transaction from the gateway are in no hash, and its address is not recomputed: `C68_deploy_violated`. The gateway can
  serve any class for it. From peers the address is recomputed and the class is bound (`C68_peer`).
* Header and transaction sync from peers (`CalculateHashes`) compares with `calculate_hash` only. Each genuine transaction with a legacy hash is refused
  with `BadTransactionHash`, and every peer that sends it is blamed, so that a node cannot sync these blocks from peers: `C68_old_violated`.

### F31. Block bodies from peers (C70)
* The receipts that peers send are stored without a check against the receipt commitment of the header: `C70_receipts_violated` shows that whatever
  receipts are sent with a block that is accepted, the block is accepted with any others. Fees, revert reasons, messages and resources that the node serves are
  those of whichever peer answered.
* Up to the checkpoint `persist` stores the groups of events by position, and peers send groups only for transactions that have events. After a block with a
  transaction without events, `events_for_block` fails, the last transactions are missing from the data of the block, and the others are read with the
  events of another transaction: `C70_checkpoint_violated`.
* Headers are visible before bodies. A block then reads as one without transactions (`C70_header_violated`), and between transactions and events it reads as
  empty in one way and with transactions in another, and fails in others (`C70_transactions_violated`).

### F32. Resuming the sync of bodies (C71)
* A block without transactions gets no row, and `first_block_without_transactions` takes it for one that is missing. An interrupted run is resumed there, and
  fails where it stores a later block a second time (UNIQUE constraint). Nothing changes that state: `C71_empty_violated`.
* `next_block_without_events` is the next block of the running event filter, which after a restart is the block after the last header. Headers are stored
  first, so after a restart the missing events are never fetched: `C71_events_violated`.
* `next < head` leaves out the last block if only its events are missing: `C71_last_violated`.

### F33. The last block accepted on L1 (C46)
* A block that is stored after L1 announced it is matched only if it comes right after the last accepted one. A new node is told the state of L1 before it has
  any block, so that after downloading the whole chain no block is shown as accepted until L1 announces again: `C46_late_violated`, for every chain.
* While a node that prunes catches up, the last accepted block stays where it was and is pruned. Requests for the block accepted on L1 then find nothing:
  `C46_pruned_violated`.
* The sync from peers sets the last accepted block to the anchor before its header is there: `C46_anchor_violated`.
* An announcement of an earlier block, as from another Ethereum node that is behind, takes the acceptance of later blocks back: `C46_back_violated`.

### F34. L1 updates while the connection is down (C72)
* `pending_state_updates` is kept over a lost connection, and the removals of that time are not seen. An update that is no longer on L1 is passed on once its
  L1 block number is finalized: `C72_removal_violated`. The node then shows as accepted on L1 what is not.
* Updates of that time are not seen either, and the state is not asked for again: `C72_lost_violated`.

### F35. The producer started again while events wait (C73)
* When the L2 producer fails, head and cache are read from the database at once, while up to eight events may be in the channel. If one is a reorg, it is found and
  sent a second time, and the consumer fails because the blocks are gone, which ends the sync: `C73_restart_violated`.
* If blocks wait and the gateway has others by then, these are left out as duplicates by their number, and the next block is stored without a check of its
  parent: `C73_unlinked_violated`. Only the state root, if it differs, would stop it.
* After a block from consensus the consumer does not advance `next_number`. The same block from the gateway is then not left out as a duplicate, and the
  consumer fails on the UNIQUE constraint: `C73_finalized_violated`.
* The number of a block from the gateway is not compared with the number asked for: `C73_number_violated`.
* A reorg that goes below the cached blocks is an error that comes again after each start: `C73_beyond_cache`.

### F36. Notification of a failed commit (C74)
* The consumer sends the notification before it looks at the result of the commit, against the comment beside it. Subscribers are told of a block or a reorg
  that is not stored: `C74_commit_violated`.

### F37. Text outside ASCII in Cairo 0 classes (C75)
* `PythonDefaultFormatter` writes characters outside ASCII with `\u{i:4x}`, which pads with spaces, where Python writes four digits with zeros; and it writes
  U+007F as it is, where Python escapes it. For every Cairo 0 class with a character from U+007F to U+0FFF in its ABI or program, as in a name or hint with
  `é`, the class hash differs from that of the network: `C75_escape_violated`.

### F38. Reads on top of decided blocks (C76)
* A nonce or contract class is taken from the newest decided block that has any update for the contract. If that update changes only something else, as when a
  contract's storage is written by a call to it, the search goes straight to the database and skips older decided blocks: an account that sent a transaction in
  decided block 1 and whose storage changed in decided block 2 has its old nonce again. `C76_nonce_violated`, `C76_class_hash_violated`; in general
  `C76_nonce_masked` and `C76_class_hash_masked`.
* Migrations of compiled class hashes in decided blocks are not read: `C76_migrated_violated`.
* `rollback_to_transaction` cuts transactions, receipts and events but not `declared_classes`. The finished block carries definitions of classes its state diff
  does not declare, and on top of it they count as declared: `C76_rollback_violated`. Declaring such a class in the next block fails as "already declared".
* The database transaction of an executor is opened with its first batch, the decided blocks are looked up with every read. A block that is committed and confirmed
  in between is in neither: `C76_stale_violated`.
* When sync is ahead and takes a block from the gateway, a decided block below it can hide newer committed ones: `C76_gap_violated`.
* Creating an executor for block n needs the hash of block n-10 from the database. When consensus is ten blocks ahead of the database the error is taken for fatal and
  ends the consensus task: `C76_history_violated`.

### F39. Classes in the state diff of a finished proposal (C76)
* `convert_commitment_state_diff` records every contract whose class changed as deployed, also those that replace a class: `C76_replaced_violated`. The state diff hash
  does not tell the two apart, but the stored state update, the RPC answer and the events of deployment do; and storing it marks the new class as declared.
* The entries of migrated classes have the new compiled class hash in place of the class hash and the old one in place of the new; the migrated class itself is
  listed among the declared ones: `C76_migration_violated`. This reads the pairs of the library as the comment in the code describes them.

### F40. The class cache after a reorganisation (C77)
* `GLOBAL_CACHE` is not cleared or checked when blocks are removed. A class declared in a removed block at height m is still run by every reader at a height of at
  least m of the new chain: `C77_reorg_violated`. The same goes for classes whose declaration was rolled back in a proposal: `C77_rollback_violated`.

### F41. Classes that are stored wrongly or not at all (C78)
* A Cairo 0 class whose computed hash is not the declared one (it exists: F37) is logged, then stored under the computed hash. The declared hash has a row without
  definition, and reading the class, or the class of a contract that has it, is an internal error: `C78_mismatch_violated`.
* The repair at the next start stores whatever the gateway sends under the declared hash, without comparing: `C78_repair_violated`. Apart from that every class
  served has the hash asked for, whatever the gateway sends: `C78_hash`.
* The comment above the collection of classes says that undeclared classes can appear in deployments and replacements, but only the former are collected. A contract
  whose class is replaced by one that no block declares cannot be read: `C78_replaced_violated`.
* A compiled class is not compared with the compiled class hash that the block declares: `C78_casm_violated`.

### F42. Class definitions from peers (C79)
* If reading what is declared in a block fails, the error is handed to `tx.send(..)` without awaiting it, so nothing is sent and the stream ends. The run counts as
  done although nothing was stored: `C79_swallowed_violated`.
* If the stream of answers ends early, the run counts as done as well, with classes of the later blocks missing: `C79_ends_early_violated`. Checkpoint sync then goes on
  with events and with tracking the head, which never looks back.
* A peer can cause that at will: a Cairo 0 class whose ABI is not JSON makes the conversion panic (`unwrap`), which ends the task that reads the answers and, with it,
  the stream, without an error: `C79_panic_violated`.
* A class whose computed hash is not the declared one (F37) can never be stored: every run over its block ends with an error, and the honest peer that sent its
  definition is blamed: `C79_mishashed_violated`. Checkpoint sync does not get past such a block.
* Cairo 0 classes with an entry point offset of more than 64 bits are sent with another offset, and those with a program over 4 MiB cannot be read:
  `C79_wire_cairo_partial` says when a class survives.
* While tracking the head, a node expects the classes of the block's declarations but nodes also send classes that were only deployed. The peer is blamed:
  `C79_tracked_deployed_violated`.
* As in F41, compiled classes are not compared with the declared compiled class hash.

### F43. The search for an L2 gas limit (C80)
* What a transaction uses plus the percentage (10 % by default) may exceed what the balance of the account covers. The run with that limit is refused by the
  executor for lack of balance, which is not "out of gas", so the estimate or simulation fails although every limit between what is used and what is covered
  works: `C80_balance_violated`.
* A transaction that still runs out of gas with the largest limit, or that reverts with a text containing "Out of gas" of its own making, is an error in
  simulations that are to report reverted transactions: `C80_revert_violated`.

### F44. Traces (C81)
* If a run of a block fails after its transactions ran (`get_initial_reads()?`) or panics, the entry "in flight" stays in the cache and its sender is gone. Every later
  call for that block and flag answers "Trace error" until the entry is lost by the cache: `C81_failed_run_violated`.
* Errors of the executor that come from reading the database are kept like those of the block: `C81_error_kept_violated`.
* A pre-confirmed block is run with the state that is stored (no pending state is passed). If it is on top of a pre-latest block, which is not stored, the changes of
  that are missing: nonces are wrong and transactions fail or give other traces: `C81_pre_latest_violated`.

### F45. Subscriptions (C82)
* The sync task commits a block and then announces it. A block that the catch-up read in between is sent again when it is announced: `C82_repeat_violated`.
* A block that is committed and announced after the last batch and before the channels are opened is read only when a later message arrives. With an event filter
  that no later event matches, the client never gets it: `C82_held_back_violated`.
* A reorg that is announced before the reorg channel is open is never reported, and blocks below the point the catch-up had reached are not read again. The client
  gets blocks of two chains: `C82_reorg_missed_violated`.
* Blocks and reorgs are announced on two channels that `tokio::select!` reads in any order. The notice may come after the block that replaces, and a client that
  follows it drops that block: `C82_reorg_order_violated`.
* The announcement is made even if the commit failed: `C82_failed_commit_violated`.
* A subscription that lags behind the broadcast channel ends. The client is not told (not modelled).

### F46. Transaction status subscription (C83)
* "Accepted on L1" is sent when L1 has reached the block number of the last status that came with an execution status. A pre-confirmed status is one. A transaction that
  was pre-confirmed for block n and then left out is reported as accepted on L1 once L1 reaches n, with the execution status it never had: `C83_l1_violated`.
* The database is read before the block channel is opened. If the block with the transaction is committed and announced in between, neither "accepted on L2" nor
  "accepted on L1" is ever sent: `C83_missed_violated`.
* A subscription that lags behind the block channel goes on without the blocks lost (a warning is logged); the transaction may be in one of them (not modelled).

### F47. Updates for pre-confirmed and pre-latest blocks (C84)
* A pre-latest block is skipped if anything was sent for its number. If it was last seen as pre-confirmed with some of its transactions, the others are never
  reported as pre-confirmed: `C84_pre_latest_violated` (the same check is in the events and receipts subscriptions).
* What was sent for a block is forgotten when the block is announced. If pending data of the same block is handled after it (both were ready and `select!` took the
  block), everything is sent as pre-confirmed again, after "accepted on L2": `C84_repeat_violated`.

### F48. Queries about pending blocks (C85)
* A contract that the pending blocks both deploy and replace, and for which they set no nonce, is answered "contract not found" by `starknet_getNonce`, and likewise by
  `starknet_getStorageAt` for each cell they do not write, although `starknet_getClassHashAt` finds it: the merged update keeps only the replacement, and only a
  deployment makes the defaults zero. `C85_nonce_violated`, `C85_storage_violated`.
* The block of the last update of a cell that only the pre-latest block writes is reported as the pre-confirmed block, one too high: `C85_last_update_violated`.
* For a pre-latest transaction without a receipt `starknet_getTransactionReceipt` and `starknet_getTransactionStatus` panic (`expect`); the numbers of receipts and
  transactions are compared for the pre-confirmed block only. `C85_pre_latest_violated`.
* Migrated classes are dropped when the differences of transactions are merged (`StateDiff::extend`). No query that is modelled here reads them.
* While a pre-latest block is shown, the parent state commitment of the pre-confirmed state update stays zero.

### F49. Pre-confirmed data that is lost or of another fork (C86)
The poller passes a pre-confirmed block on only if its number, or the number of its transactions, candidates included, is higher than that of the last one.
* A candidate that gets executed while no transaction joins the block stays a candidate for all queries: `C86_promotion_violated`.
* The consumer drops an event that does not fit the database yet, and the poller does not send it again: the pending block stays invisible until a transaction joins
  it. `C86_early_violated`.
* After a reorg the stored pending block of the old fork is shown as soon as the new fork has the same height, as only numbers are compared, and a block of the new
  fork with fewer transactions does not replace it: `C86_fork_violated`. While the chain is lower than before, nothing is passed on: `C86_lower_violated`.

### F50. Storage proofs for odd requests and young chains (C87)
* Keys are not checked to be below 2^251. The proof is made for the low 251 bits, while the leaf data are looked up with the whole felt: the answer proves a contract's
  state hash and gives class hash, nonce and storage root zero for it. `C87_large_violated`, for every contract of every history.
* While no contract exists, `contract_leaves_data` is empty, not one entry per address: `C87_noleaves_violated`.
* In pruning mode a missing class root is taken for a pruned one: until the first class is declared, every storage proof request is refused as not supported.
  `C87_noclass_violated`.

### F51. JSON-RPC corner cases (C88)
* An empty batch `[]` on a websocket is answered with an invalid request, but then run: `run_concurrently` makes a channel of capacity zero, which panics. The loop of the
  connection ends; no later message is answered. Its subscriptions go on sending and can no longer be ended by request. `C88_ws_empty_violated`, for all connections and all later messages.
* `disable_batch_requests` has no effect on websockets: `C88_ws_disabled_violated`.
* A notification is not run at all: `C88_notification_violated`, for all notifications.
* A request whose id is a number but no 64-bit integer is refused, with id null, so the caller cannot match the answer: `C88_id_violated`.
* An array such as `["2.0", 1, "starknet_chainId"]` in a batch is run as a request: `C88_array_violated`.

### F52. The end of a subscription (C89)
* `SubscriptionSender::send` looks up the id and then sends. If unsubscribing comes in between, its answer is sent first and the notification after it:
  `C89_after_end_violated`. It is one data message at most (`C89_wire_partial`).
* When `T::subscribe` returns an error, its channel to the main task is dropped before `send_err` is called. The main task may end first; its guard removes the id, and
  `send_err` then sends nothing: the client never learns that its subscription is over. `C89_error_lost_violated`, for all continuations.
* `T::subscribe` returns `Ok` when it lags behind the broadcast channel: the subscription ends without a word. `C89_lag_violated`, for all continuations.

### F53. What honest peers cannot deliver (C90)
* `get_state_diff` does not send migrated classes, but the state diff length of the header counts them. For every block that migrates a class, the request for the block
  ends with `IncorrectStateDiffCount`, and the stream asks for it for ever: `C90_migrated_violated`, for all chains.
* A class that is deployed without having been declared is read back as declared (see `C20_undeclared_deploy`), and so one change too many is sent; the stream takes it
  for a change of the next block: `C90_undeclared_violated`.
* `Receipt::to_dto` does not send the data gas of the total gas consumed, nor the count of `segment_arena`, and cuts the address of a message to twenty bytes. The receipt is
  stored with other values than the receipt commitment of the header covers, and the receiver does not check it (F31): `C90_receipt_violated`, `C90_message_violated`.
* A counter of 2^32 or more panics the task of the server (`try_into().unwrap()`): `C90_counter_violated`.
* The entry point type of an invoke transaction of version 0 and the nonce of a declare transaction of version 0 are lost; no hash covers them: `C90_txn_violated`.

### F54. Eviction protects the attacker (C91)
`evict_inbound_peer` says that it protects "half of them which have been connected for the longest time" and evicts "the youngest peer in the most populous group". It sorts
by `Reverse(connected_at)`, so the half taken from the front is the youngest, and it evicts the first of an ascending sort, so a peer of the least populous group, of those the
one connected the longest. When an attacker opens connections from a single network, later than everybody else, each new one evicts an honest peer until twelve of them are
left: `C91_attack_violated` (for every reachable state of the node), `C91_siege_violated`.

### F55. The direction of a peer is the direction of the first contact (C91)
The record of a peer keeps its direction when the peer connects again the other way. A peer that the node failed to dial and that then connects by itself is recorded as
outbound: it does not count against the inbound limits (`C91_inbound_limit_violated`), and it takes a place of an outbound peer, so that the node makes no dial any more
(`C91_outbound_starved_violated`).

### F56. The outbound limit does not count the dials under way (C91)
The limit is checked when a dial begins and only connected peers are counted; dials of an address without a peer, and those of hole punching, are not checked at all. Two dials
at the same time pass a limit of one: `C91_outbound_limit_violated`.

### F57. An evicted peer comes back (C91)
`eviction_timeout` is documented as "How long to prevent evicted peers from reconnecting", but it is only the time for which records are kept: the ban is thirty seconds
(`C91_eviction_timeout_violated`). It counts from the end of the connection, and before that there is none: an evicted peer that opens a second connection before the first is
closed is let in (`C91_evicted_returns_violated`).

### F58. Rate limit and reconnection timeout do not see connections under way (C91)
Both checks look at the records of connected peers when a connection begins. Any number of connections begun at the same time, also from one address, pass:
`C91_rate_limit_violated`, `C91_reconnect_violated`.

### F59. Panics in the management of connections (C91)
`PeerSet::update` panics for a peer without a record. A peer whose connection is being closed may be dialled; when the dial fails the record says that it is disconnected and
goes stale after the eviction timeout, and a ping or the end of the old connection is then a panic (`C91_crash_violated`). The command `NotUseful` for a peer that is gone is
another (`C91_report_crash_violated`).

### F60. The version of a submitted transaction (C92)
`DeclareV0V1V2` has a field `version` inside an enum whose tag is `version`: the JSON sent for declare transactions of versions 1 and 2 has this key twice, with two different
values if the transaction is marked as for queries (`C92_declare_version_twice_violated`). For all other kinds the mark is dropped: a transaction that the user has marked as
for queries only, and any version whose lower 128 bits are a known one, is sent as an ordinary transaction (`C92_query_sent_violated`).

### F61. A transaction that was taken is reported as failed (C92)
After the gateway has taken a transaction the latest block is read from the database. If that fails the user gets error 63 instead of the hash, and the transaction is not
put in the tracker (`C92_submit_err_violated`). Even when it is there, it is forgotten after 300 seconds (`C92_expired_violated`) or after as many other submissions as the
cache has room for (`C92_evicted_violated`); the status is then "not found" although the transaction is only slow.

### F62. One unknown message hides the others (C92)
`starknet_getMessagesStatus` fails with `TxnHashNotFound` if the status of one of the messages is not known, or if anything fails inside the node, although the API has a list
for the answer: `C92_messages_violated`.

### F63. A text without digits is the number zero (C93)
`bytes_from_hex_str_stripped` takes the empty text and `0x` for zero, so that a request with an empty hash or address is answered for zero instead of being refused; numbers of 64
bits go through `from_str_radix`, which takes a plus sign after `0x`: `C93_hex_read_violated`.

### F64. Different transactions look the same (C93)
A version 3 transaction without a bound for data gas, as all were before Starknet 0.13.4, is shown from 0.8 on with a bound of zero, like one that has this bound; their hashes differ,
so a client cannot compute the hash of the one or the other. Below 0.8 no such bound is shown (`C93_data_gas_violated`), and below 0.10 or unless asked for no proof facts, which the
hash covers too (`C93_proof_facts_violated`).

### F65. The commitments of old blocks are shown as zero (C93)
From 0.10 on a header has commitments to transactions and events, but for blocks before Starknet 0.13.2 these are shown as zero, though they are stored and covered by the hash of
the block: headers that have their hash and headers that do not look the same (`C93_header_violated`, `C93_header_unchecked_violated`).

### F66. A crash while the database is made fixes its modes (C94)
The file is created and migrated in many transactions, and only then the two rows that say that history and tries are pruned are written; a file that exists is not "new" any more. If the
node dies in between (the migrations of a new database alone are 38 transactions) or the row cannot be written, every later start with the same settings is refused with "Cannot enable ...
on a database that was not created with it enabled", and a start without settings silently gives an archive instead of the default: `C94_crash_at_creation_violated`,
`C94_crash_before_tries_violated`.

### F67. Asking for less history can remove all blocks (C94)
When the history is reduced from `i` to `k`, `validate_mode_and_update_db` removes the blocks `oldest..oldest + (i - k)` whatever is stored. If the database does not yet hold `i + 1` blocks,
as in its first days or after the history was increased before, it removes blocks that are to be kept, up to all of them including the newest, after which the node takes the
database for empty though the state is still there: `C94_young_history_violated` (history 100, 5 blocks, restarted with 50: none left). The loop also runs over numbers that do not exist,
so that going back from a very large number takes that many rounds. Nothing needs to be removed here: `perform_blockchain_pruning` does it with the next block.

### F68. A start that is refused has already removed blocks (C94)
The history is reduced before the mode of the tries is checked, so that a start that is refused because of the tries has written the new size of the history and removed blocks:
`C94_tries_conflict_violated`.

### F69. A failed request for classes is never answered (C95)
`BehaviourEvent::ClassSync(OutboundFailure)` is only logged (p2p/src/sync/behaviour.rs:258-264); for the four other kinds of data the sender is taken out of `pending_requests` and gets the
error. `send_classes_sync_request` has no timeout, so its caller waits for ever: `C95_classes_violated` (the peer cannot be dialled; no continuation of the run answers). The entry also stays
in the map.

### F70. Requests are lost in the handler while the connection lives (C95)
If a stream is opened when `max_concurrent_streams` are being served (inbound ones count too), the stream and the request on it are dropped with a warning and without an event:
`C95_capacity_violated`, `C95_capacity_drops`. If opening a stream fails with an I/O error, the message is put back into `requested_outbound` "retrying", but no new stream is asked for:
`C95_retry_violated`; if another request comes, it is served in place of the next one, and the last one waits. In both cases the caller has no answer until the connection is closed.

### F71. A stream that times out at the wrong moment takes the node down (C95)
When a request was written, its channel of responses is in the handler's queue, from which it is taken only if the futures, the pending events and the requests waiting for a stream have
nothing to say first. If the stream's time (10 s) is over in between, `OutboundTimeout` goes out first, and the sync behaviour hands the caller the error; then
`OutboundRequestSentAwaitingResponses` follows and `.expect("... sync request still to be pending")` panics: `C95_panic_violated`. For classes it does not, because of F69.

### F72. An answer that was cut short looks complete (C95)
The end of the stream in the middle of a message, or of its length, is the same error (`UnexpectedEof`) as the end after the last message, and is taken for it. Likewise when the time for the
whole stream (10 s) is over or the connection is closed: the future is dropped, and the channel of responses just ends. For every stream of responses and every point where it is cut the
caller sees some of the first responses and a clean end: `C95_truncated_violated`.

### F73. The bandwidth limit is not kept (C96)
`governor::Quota::per_second(max)` hands out one permit every 10⁹ / max ns, rounded down. A limit that does not divide 10⁹ is exceeded in the long run (`C96_limit_violated`), by 0.4 % for the
least one that is accepted, 10 MiB/s (95 ns), by up to a factor of 2 (for limits just above 500 MB/s); above 10⁹ the interval is 0 and there is no limit at all
(`C96_unlimited_violated`).

### F74. A read or write that waits for the limit is not woken (C96)
`poll_read` and `poll_write` make the future of `until_n_ready`, poll it once and drop it when they return `Pending` (p2p/src/transport/rate_limit.rs:157-159, 180-182); the timer in it, which has
the task's waker, is dropped too. Nothing wakes the task when permits are there again, and the socket has no waker, as it was not polled: `C96_stall_violated`. The connection stalls until
something else wakes its task (the other direction, a ping, a timeout).

### F75. The limit counts bytes that were not transferred (C96)
Permits for the whole buffer are taken before the socket is polled and not given back if it has nothing or less; they are taken again when it is polled again. A connection on which no byte ever
went through refuses to read one: `C96_waste_violated`. With a buffer as large as the quota each byte that arrives alone costs a second.

### F76. Reading into an empty buffer or writing nothing panics (C96)
`NonZeroU32::new(n).unwrap()` on the length of the buffer (rate_limit.rs:152-155, 175-178): `C96_empty_violated`. `AsyncRead` and `AsyncWrite` allow empty buffers; without the limit these calls
succeed.

### F77. A refresh of the HTTP client does not reach calls that are being retried (C97)
A call takes a clone of the HTTP client when it begins (gateway-client/src/lib.rs:459-475) and all its attempts use it (builder.rs:283-297). A call that fails because the gateway has moved goes
on trying the old addresses after the refresh: `C97_stale_violated`. As such calls do not end on their own (F78), they never get to the new ones.

### F78. A call that the gateway refuses does not end (C97)
`retry_condition` tries again on everything that is not a Starknet error, without a limit: a status from 401 to 599 other than 500 (a wrong key, a wrong path, a blocked address) or an answer that
cannot be read keeps the call going for good, and its caller never gets an error: `C97_endless_violated`.

### F79. The waits between attempts are not the documented ones (C97)
The documentation of the client (gateway-client/src/lib.rs:252-259) says min(2ⁿ · 15, 600) s. The waits are 2, 4, 8 and then 10 s (builder.rs:473-497): `C97_read`, `C97_backoff_violated`.

### F80. If building the HTTP client fails after a change of addresses, it is not tried again (C97)
`refresh_http_client` notes the new addresses before it builds the client (gateway-client/src/lib.rs:381-434). If that fails, the next refresh sees no change and reports success, although the task
that calls it says it will try again in the next cycle: `C97_refresh_violated`.

### F81. All rounds of a height have the same proposer (C98)
`L2ProposerSelector::select_proposer` does not use the round (pathfinder/src/consensus/inner/fetch_proposers.rs:27-51): `C98_rotation_violated`. If that one node is down or its proposals are
refused, no round of the height gets another proposer and the height is not decided. (The default selector, which the node does not use, does rotate: `C98_round_robin`.)

### F82. The proposer is the one with the least address (C98)
The selector takes "the first proposer from the set", but `ValidatorSet::new` has put the set in the order of addresses: neither the order of `--consensus.proposer-addresses` nor the priority that
the contract gives has any effect: `C98_order_violated`, `C98_priority_violated`.

### F83. Numbers from the contract are cut off to 64 bits (C98)
The length of the list and each voting power are the last 8 bytes of a field element, whatever is before them (consensus-fetcher/src/lib.rs:260-262, 300-301): a power of 2⁶⁴ is read as 0, and a
wrong length can be accepted (`C98_truncated_violated`, `C98_length_violated`). `array_length * 3` overflows for lengths above 2⁶⁴ / 3 and panics instead of giving `InvalidValidatorData`; this can be
reached by `pathfinder_fetchValidators`.

### F84. Addresses that are accepted can make every choice of a proposer panic (C98)
`parse_or_exit` checks that there are three validators but not that the proposers are among them; the selector then panics ("Proposer must be in validator set"). It also panics if the contract
cannot be called, as on any network but Sepolia if no proposers are configured: `C98_panic_violated`.

### F85. Who proposes at a height depends on the node's latest block (C98)
The contract is called at the node's latest block (consensus-fetcher/src/lib.rs:186-192). Nodes that are not at the same block can disagree on the proposer of the same height and refuse each
other's proposals: `C98_latest_violated`. (Validators cannot be fetched from the contract at all: the configuration requires them, `C98_validators`.)

### F86. The option for the greatest size of compiled classes has no effect (C99)
The node accepts the option among its own (config.rs `CompileConfig`), but takes only the list of library functions from it (config.rs:1412), and the child is started with
`compile --blockifier.libfunc-list …` only (compiler/src/lib.rs:110-122). The child therefore uses the environment variable or the default of 81920: `C99_size_violated`.

### F87. A child that dies early is not waited for (C99)
If the child ends while the class is being written to it, `write_all` fails and `compile_sierra_to_casm` returns without `wait` (compiler/src/lib.rs:124-132; dropping a `Child` does not wait): a
zombie is left for the life of the node, once per such class: `C99_zombie_violated`.

### F88. The settings do not count for classes that state an old version (C99)
A class chooses its compiler by the version it states. The compilers for 0.1.0, 1.0.0 and 1.1.0 take neither the list of library functions nor the greatest size (compiler/src/lib.rs:338-346):
`C99_old_versions_violated`.

### F89. Without a log the engine goes on voting and deciding (C100)
If the file cannot be opened, `create_consensus` logs an error and uses a sink that writes nothing (consensus/src/lib.rs:622-634). The engine votes and decides as before; after a restart it knows of none
of it, and the height never counts as finished in this process (`NoopWal::is_finalized` is false): `C100_no_log_violated`.

### F90. A timeout of unknown kind in the log makes every start panic (C100)
The kind is read from the log as any string, and an unknown one is `unreachable!()` (consensus/src/internal/wal.rs:115-121), although errors of entries are said to be skipped
(internal.rs:130-141): `C100_unknown_kind_violated`. An engine of this version does not write such a line (`C100_round_trip`); a file of another version or a damaged one may have it.

### F91. The consensus task spins when there is nothing to do (C100)
`poll_internal` and `next_event` never wait: with nothing to do they answer `None` at once (`C100_spin_violated`), and the task then calls them again without a pause
(pathfinder/src/consensus/inner/consensus_task.rs:112-121 `None => continue`). A node in consensus keeps a core busy between any two messages.

### F92. On a pruned node the oldest ten blocks that are kept cannot be used for calls, estimates and simulations (C101)
Before anything is run, the hash of the block ten before the named one is read from `block_headers` and must be there (executor/src/execution_state.rs:250-268); pruning deletes it
(storage/src/connection/pruning.rs:50-68). The answer is an internal error for a block whose state is there: `C101_pruned_violated`. If fewer than ten blocks are kept, this holds for the latest and the
pre-confirmed block too, so no call works at all. The hash is not needed: the state after the named block has it already.

### F93. Addresses in requests are not checked, and running them panics (C101)
Senders and called contracts of broadcast transactions are read as any field element (rpc/src/types.rs: `value.deserialize("sender_address").map(ContractAddress)` and the like), also the target of a
message (estimate_message_fee.rs:46). The conversion for the library then does `PatriciaKey::try_from(..).expect(..)` (executor/src/types.rs:1394ff): with 2^251 or more the task panics, and
the answer is an internal error: `C101_address_violated`. `call` checks the address and answers with an error about it.

### F94. A call may say that an entry point is not there although it is (C101)
A failed call that returned exactly the word "ENTRYPOINT_NOT_FOUND" is reported as error 21 (executor/src/call.rs:82-92). Any contract may fail with that word, also because a contract that it
calls has no such entry point: `C101_entry_point_violated`.

### F95. A contract deployed in a pending block is not found by estimateMessageFee (C101)
From version 0.10 of the API on the target is looked up in the database only (estimate_message_fee.rs:103-108), also for the pre-confirmed block: `C101_pending_contract_violated`. Older versions of the API run it.

### F96. A Sepolia database that ends with a complete range of blocks cannot store blocks after the upgrade (C102)
Revision 74 stores as running filter the filter of the range that contains the latest block, with `next_block = latest + 1` (storage/src/schema/revision_0074.rs:131-147). If the latest block is the last
one of a range (block number 8191 modulo 8192, at or after 917504), the program itself would have a new, empty filter for the next range at this point (event.rs:138-147). At start the stored filter is taken
as it is, because `next_block` fits (event.rs:655-658), and storing the next block fails the assertion of `AggregateBloom::insert` (bloom.rs:155-161) while the lock of the filter is held. Nothing
is written, so each restart ends the same way: `C102_boundary_violated`.

### F97. In the same case the stored filter of the last range is not repaired (C102)
`end_block` leaves out the range of the latest block, "covered by the running event filter" (revision_0074.rs:96-101), but for a complete range `event_filters` has a row, which keeps its damaged
bitmap: `C102_last_range_violated`.

### F98. The repair of event filters does nothing on a pruned database (C102)
Revision 74 takes a database without block 0 for an empty one (revision_0074.rs:32-44). A node that prunes its blocks has no block 0, so a damaged Sepolia database stays damaged, and events of
blocks that are kept are not found: `C102_pruned_violated`.

### F99. After an upgrade old blocks have an L2 gas price of zero, on a synced node it is one (C103)
Revision 65 adds the columns as NULL (storage/src/schema/revision_0065.rs:6-9), NULL reads as zero (connection/block.rs:603-608). Revision 72, which is there to make the default one, changes stored zeros only
(revision_0072.rs:6-17). A node that syncs the same block stores one (pathfinder/src/state/sync.rs:1458-1461). `starknet_getBlock*` of both nodes differ for every block stored before revision 65: `C103_prices_violated`.

### F100. After an upgrade the receipt and state diff commitments of old blocks are zero (C103)
Revisions 58 and 62 add the columns with defaults and nothing fills them (revision_0058.rs:9-16, revision_0062.rs:8-12). Since version 0.10 of the RPC they are part of block headers (rpc/src/dto/block.rs:106-110), so an upgraded
node answers with zero commitments and a length of zero where a synced one has the real ones: `C103_commitments_violated`.

### F101. After an upgrade the state updates of old blocks lack re-declared classes (C103)
The table of re-declared classes starts empty (revision_0064.rs:34-41). For blocks stored before, a class that an earlier block had declared is missing from the state update, so its commitment does not match either:
`C103_redeclared_violated`.

### F102. Revision 73 makes two classes unknown also where they are declared (C103)
The block number of two class hashes is removed unless the class is in the table of re-declared classes (revision_0073.rs:27-43). That is right if the number stems from a removed block. A database in which the class was properly
declared once, for example because the reorg happened before revision 71 and the class was declared again afterwards, loses it as well: `C103_known_class_violated`. Whether such a declaration exists on a public network cannot be seen from
the code.

### F103. A transaction that cannot be decoded makes the node hang at start (C104)
Revision 57 hands blocks to worker threads and, after each 50 blocks, waits for exactly 50 results (storage/src/schema/revision_0057.rs:196-203). A worker that meets a row it cannot decode panics (lines 35-56) and returns nothing. As
long as another worker is alive, the channel stays open: the main thread waits for the 50th result, the workers wait for the next block, and the node hangs at every start, without the error that lines 222-230 were written to
give. Proved for the first batch, for every interleaving: `C104_hang_violated`. Only if all blocks are in the last, incomplete batch, or if every worker has panicked, does the migration fail as intended. Revision 52 has the same shape.

### F104. Some documents of the gateway make the reading task panic instead of giving an error (C105)
A deploy transaction whose version is neither 0 nor 1, and a deploy account transaction of version 0, are deserialized without an error and then hit `panic!` in the conversion to the stored type (gateway-types/src/reply.rs, `From<Transaction>`,
lines 1164-1422). A declare or invoke transaction that is sent as an array hits an `expect` whose comment says that the value must be an object because the version could be read (reply.rs:1516-1521, 1829-1834): serde also reads structs and
internally tagged enums from arrays, so `["DECLARE"]` gets there. Proved for all such documents: `C105_deploy_violated`, `C105_account_violated`, `C105_array_violated`; `C105_panic_partial` shows that objects panic in no other case.

### F105. The L2 gas of receipts is not written (C105)
`ExecutionResources` in the gateway's format is made from the stored one without its `l2_gas` (gateway-types/src/reply.rs:346-356, and 397-405 where `l2_gas: None` is set): whatever is served in this format, by the `feeder-gateway` tool for one,
has `"l2_gas": null`, and a node that reads it stores zero. Nothing notices, because the receipt commitment has no L2 gas in it (block-commitments/src/lib.rs:460-461). Proved for every receipt with L2 gas: `C105_l2gas_violated`. The entry point
type of old invoke transactions is dropped as well (`C105_entry_type_violated`).

### F106. A message to L1 with a large destination makes the block unreadable (C105)
`L2ToL1Message::to_address` is read as a contract address, which is limited to 251 bits (gateway-types/src/reply.rs:560-570), while the comment at its stored counterpart (common/src/receipt.rs:33-37) says that the destination may be any field
element. A receipt with a message to an address of 2^251 or more is refused, and with it the whole block: the node cannot sync past it. Proved: `C105_message_violated`.

### F107. A Cairo 0 class whose program is not base64 makes the request panic (C106)
`CairoContractClass::serialize_to_json` decodes the program of a request with `BASE64_STANDARD.decode(&self.program).unwrap()` (rpc/src/types/class.rs:246-248). It is called for the declare transactions of versions 0 and 1 in
`starknet_estimateFee` and `starknet_simulateTransactions` (rpc/src/executor.rs:93-120, rpc/src/types.rs:1272-1291) before anything has looked at the program. The blocking task panics and the caller gets an internal error in place of one that says what is
wrong. Proved for every such class: `C106_base64_violated`; `C106_panic_partial` shows that nothing else there panics.

### F108. ABIs are shown changed (C106)
In the answer of `starknet_getClass` for a Cairo 0 class a function with any `stateMutability` has `"view"` (rpc/src/dto/class.rs:171-176), the `inputs` and `outputs` of an event are left out (182-200), and lists that are missing are shown as empty ones.
The ABI is part of what the class hash is computed from, so that the class in the answer has another hash than the one it was asked for. Proved for every stored class with such an entry: `C106_abi_shown_violated`. An ABI in which a single entry cannot be
parsed is shown as `null`, which is intended.

### F109. The answer for a Sierra class with an empty ABI cannot be used (C106)
An empty ABI is shown as `"abi": null` (rpc/src/dto/class.rs:38-40), while the class of a declare transaction must have a string there or nothing at all (rpc/src/types/class.rs:674-675: `#[serde(default)]` covers a missing field, not `null`). So the answer of
`starknet_getClass` is refused by `starknet_addDeclareTransaction`, `starknet_estimateFee` and `starknet_simulateTransactions` of the same node. Proved for every such class: `C106_empty_abi_violated`.

### F110. Fields that are null are dropped before a class is hashed (C106)
Optional fields of an ABI entry or of the program that are `null` in a request are read as `None` and left out when the definition is written again for hashing (rpc/src/types/class.rs: `skip_serializing_if` on lines 285-348 and 609-641). The ABI is hashed as
text, so that `"inputs": null` in the ABI of a request gives another class hash than the class has in the network. Compilers do not write such fields. Proved: `C106_null_violated`; `C106_hashed_cairo` shows that an ABI without `null` is hashed
as it was sent.

### F111. A gateway that goes back makes starknet_syncing fail and /ready/synced unanswered (C107)
`syncing` (rpc/src/method/syncing.rs:13) and `synced_route` (pathfinder/src/monitoring.rs:73) compute `highest - current` on unsigned numbers, and releases are built with overflow checks. `update_sync_status_latest` writes whatever head the gateway gave last
(pathfinder/src/state/sync.rs:1255-1268), also one below the current block. So after a reorganisation to a shorter chain, behind a load balancer with a lagging gateway, or after a restart with a database ahead of the gateway, each request panics: callers of
`starknet_syncing` get an internal error and the connection to `/ready/synced` ends without an answer, until a block is downloaded that is not above the head. It also happens with a gateway that only goes forward, if a block is accepted between the two halves
of the status task's step. Proved: `C107_behind_violated` (every state), `C107_restart_violated`, `C107_race_violated`; `C107_no_error_partial` gives conditions under which it cannot happen.

### F112. The current block in the sync status is not the newest stored block (C107)
The consumer writes the status before it stores the block (pathfinder/src/state/sync.rs:773-798), so that a block is named that cannot be queried yet or, if storing fails, ever. A rollback does not write the status at all (950-970): until the next block, the
status names a block that was removed, and the node can be any number of blocks behind and still answer `false`. Blocks stored before the first head is noted are not counted, since the first write of the status sets the current block to the starting one (1240-1245).
Proved: `C107_early_violated`, `C107_reorg_violated` (every state), `C107_late_violated`; `C107_current_partial` says when the current block is right.

### F113. Nodes that sync in another way always say that they are not syncing (C107)
Only `state::sync` starts the task that writes the status. With peer-to-peer sync and for nodes that follow consensus (pathfinder/src/bin/pathfinder/main.rs:761-868) the status is never set, so that `starknet_syncing` answers `false` however far the node is behind, and
`/ready/synced` never says yes. Proved for every run: `C107_other_modes_violated`.

### F114. A block that is shown by some methods only (C108)
* `insert_transaction_data` may be called without events (sync from peers up to a checkpoint, pathfinder/src/sync/transactions.rs) and `update_events` adds them later. In between, `getBlockWithTxs`, the count and the transaction by index show the transactions, but
  `getBlockWithReceipts` zips them with no events and shows an empty block without an error, and `getTransactionReceipt` of each of them is an internal error: `C108_receipts_violated`.
* `getStateUpdate` needs the parent's state commitment, and reports `BlockNotFound` if the parent was pruned (rpc/src/method/get_state_update.rs:92-103). This is deliberate, but a caller sees a block that `getBlockWithTxs` shows and whose state update "does not
  exist" because of an error code that means something else: `C108_state_update_violated`. `C108_state_update_partial` says exactly when this happens.

### F115. The grace period does not bound the shutdown (C109)
After the grace period `node_main` logs "forcing exit" (pathfinder/src/bin/pathfinder/main.rs:539-541), but nothing is forced: `main` drops the runtime at the end of `block_on` (45-58), and a dropped tokio runtime waits without limit for closures that have begun on the
blocking pool. Most of the database and execution work of RPC requests runs there and does not look at the cancellation token, so that a long trace or a long query delays the exit by its whole duration, after the log line that says otherwise.
Proved for every grace period and every delay: `C109_grace_violated`. What this buys is that no work is torn even then: `C109_not_torn`, `C109_completed`.

### F116. Requests and untracked work at shutdown (C109)
* The RPC server asks axum for a graceful shutdown (rpc/src/lib.rs:236-241), but the server's future is started by `util::task::spawn`, which drops it as soon as the token is cancelled (util/src/task.rs:35-44). Nothing waits for the connections: the query of a
  request in progress is waited for, its answer need not be sent before the runtime is dropped: `C109_request_violated`. A connection can also start a tracked query after the wait has ended: `C109_late_violated`.
* The repair of class definitions uses `tokio::task::spawn_blocking` (pathfinder/src/state/sync/repair.rs:43, 84), so that the shutdown "finished successfully" while it writes: `C109_untracked_violated`.
* `handle_critical_task_result` (main.rs:1173-1197) passes on the result of a critical task that "ended unexpectedly": if it is `Ok(())`, the process ends with success and a supervisor that restarts on failure does not restart it: `C109_status_violated`. Latent: the
  critical tasks of this version end with errors only.

### F117. Pending classes of the native class cache (C110)
Only with the feature `cairo-native` and native execution enabled.
* `NativeClassCache::get` marks a class as pending in the same least-recently-used cache that holds the compiled classes, and sends the class to an unbounded channel (executor/src/state_reader/native.rs:38-44, 57-88). A pending entry that is evicted is sent again when the
  class is asked for again, so with one class more in use than the cache holds, the queue (which holds the definitions) grows with every request while the thread is busy, and the same class is compiled over and over: `C110_queue_violated`, for every cache size.
* If compiling fails, the entry stays pending (native.rs:127-130): the class is not tried again while the entry is in the cache, also after a transient failure, and since a pending class is kept out of the cache of all classes (state_reader.rs:145-151), each execution reads
  and parses it again: `C110_retry_violated`.
* Only the call of the compiler is inside `catch_unwind` (native.rs:171-187). A panic in what is around it (parsing the Sierra program, making the CASM class) ends the only thread; requests go on to be answered with CASM code, the failing send is ignored (`let _ =`), and no
  class is compiled until a restart: `C110_panic_violated`. No input that panics there is known to us.

### F118. Execution errors that cannot be read by the documented schema, or not fully (C111)
* The schema `CONTRACT_EXECUTION_ERROR` (specs/rpc/v08 to v10) requires a selector that is a felt. A frame of an entry point may have none (executor/src/error_stack.rs:85-89; for instance a constructor, whose selector is "UNKNOWN" in the tests of executor/src/error.rs), and
  is shown with `"selector": null` (rpc/src/error.rs:387-394): one such frame anywhere makes the whole error unreadable for a client that follows the schema: `C111_selector_violated`.
* Only the last text of a stack is shown (error.rs:370-379); earlier ones, for instance VM exceptions of outer calls with the position in the code, are dropped: `C111_texts_violated`.
* A frame of a revert without a class hash is shown with class hash zero (error_stack.rs:71-72, marked as FIXME): `C111_class_violated`.

### F119. Errors that are not told as documented (C111)
* `NO_TRACE_AVAILABLE` is documented with `{"status": "RECEIVED" | "REJECTED"}`; the answer has `{"error": "Received" | "Rejected"}` (rpc/src/error.rs:11-15, 291-293): `C111_trace_violated`.
* The three methods that submit transactions look for "Invalid transaction nonce" in the text of a failed validation (add_invoke_transaction.rs:186-191 and the same in the other two). The text contains what the account says, so an account that fails with a text in which these
  words occur is reported as a wrong nonce (52 instead of 55): `C111_nonce_violated`.
* An invalid proof is answered with code 69 in versions whose documents do not have it (latent, as a comment in the code says): `C111_proof_violated`.
* The code of an error of the gateway that is not known is dropped, only its message is told, and the documented errors 64 and 65 (replacement underpriced, fee below the minimum, from 0.9 on) are never answered: `C111_unknown_violated`.

### F120. Compiled classes outside of the documented schema (C112)
* `bytecode_segment_lengths` is documented as a list of integers (specs/rpc/v08 to v10, starknet_executables.json), but a stored class may have nested lists (common/src/casm_class.rs:76-91) and the answer has them as stored: `C112_flat_violated`.
* `COMPILATION_ERROR` (100) is documented for `starknet_getCompiledCasm` and never answered: `Error::CompilationFailed` (get_compiled_casm.rs:42) is not constructed. Every class without a compiled class, also one of Cairo 0 that `starknet_getClass` shows, is answered with "class hash not found" (get_compiled_casm.rs:87-91; see `C112_absent`).

### F121. A node built after a release is told to update to that release (C113)
* The version of a node is the text of `git describe` (version/build.rs:17-24): for a commit after the release v0.21.3 it is `v0.21.3-12-g1a2b3c4`, for a changed checkout `v0.21.3-dirty`. By the rules of semver the part after the hyphen is a pre-release, which is lower than 0.21.3 itself, so the comparison
  of update.rs:67-71 announces release 0.21.3, which the node contains, as a new release at each poll: `C113_dev_violated`, for every release without a hyphen and every such suffix.

### F122. Traces of the gateway are put together by position, and gas of calls is not what the total counts (C114)
* The traces that the gateway gives for a block carry the hash of their transaction (gateway-types/src/trace.rs:15-17), which is not looked at: traces and transactions are put together by position (rpc/src/method/trace_block_transactions.rs:236-242). A trace of another transaction is answered under the wrong hash: `C114_hash_violated`. With fewer traces than transactions the rest of the block is missing in the answer, without an error: `C114_short_violated`.
* The total of L2 gas of a transaction counts `gas_consumed` of its parts where the gateway has it (404-425). The gas that is shown for a call comes from `total_gas_consumed` only (543-546, 600-603). Where the gateway gives `gas_consumed` and not the other, calls are shown with no L2 gas and the total is not the sum over the parts shown: `C114_l2_violated`.
* The sums are checked (`overflow-checks` in the release profile), so counters of the gateway that do not fit together panic; not modelled.

### F123. Some traces are written in a form that the documents exclude, or not at all (C115)
* Before 0.9 the documents have no form for an L1 handler that was reverted. A fixed call of the contract 0x0 is written in its place (rpc/src/dto/simulation.rs:18-47, 140-150): the reason is lost, and the call was never made: `C115_handler_violated`. Before 0.8 that call has zero steps, which the documents exclude (`"not": {"const": 0}`): `C115_dummy_violated`.
* An `__execute__` without a call and without a reason, which is what a trace of the gateway without `function_invocation` and `revert_error` becomes (F122, trace_block_transactions.rs:490-503), is written as `{}` (620-623). From 0.7 on the documents require a call or a reason: `C115_empty_violated`.
* `call_type`, `class_hash`, `entry_point_type` and `entry_point_selector` are left out if they are not known (210-238), but the documents require them: `C115_field_violated`. In traces of the gateway they are optional (gateway-types/src/trace.rs:42-72).
* A deployment without a call of a constructor is an error (84-95), and with it the answer for the whole block: `C115_constructor_violated`. The traces of the gateway may lack `function_invocation` (trace.rs:7-18).

### F124. Receipts of executed transactions have the wrong count of Pedersen hashes, and can have events out of order (C116)
* `pedersen` of a receipt is read from `poseidon_builtin_applications` (executor/src/types.rs:671-674), and `poseidon` too (695-698): `C116_pedersen_violated`.
* Events are merged in rounds, the first of every number in each round (1127-1149). The comment there says that numbers are not unique and that duplicates go to the end (1026-1030). If the validation emits an event with number 0 and the execution emits events with numbers 0 and 1, the receipt has the event of the validation, then the second event of the execution, then its first: `C116_order_violated`. For an execution followed by a transfer of the fee the order is right: `C116_order_partial`.

### F125. A stage that was rolled back or had an error can go on, and then commits other transactions than it lists (C117)
* `rollback_to_transaction` cuts the lists of the validator only (validator/src/lib.rs:665-695), and closing the block commits as many transactions as are listed, from the first that was ever added (concurrent_block.rs:226-244). Nothing refuses another batch after a rollback: `C117_rollback_violated`. After a batch with an error, the transactions of that batch stay with the executor too: `C117_error_violated`.
* The node cuts a proposal only at its end (batch_execution.rs:247-258), and takes the validator out of its cache before a batch, so that it is gone after an error (p2p_task.rs:1114-1125). As the node uses the interface, the block is right: `C117_block`.

## 5. What is modelled, by area

* `Verif/Trie`: `merkle-tree/src/tree.rs`, `merkle_node.rs`, the trie tables of `storage/src/connection/trie.rs` (insert, load,
  codec, removal markers, pruning, purge, coalesce), proofs and their verification. Hashes are parameters.
* `Verif/State`: `storage/src/connection/state_update.rs` (insertion, historical reads, `state_update`, reverse updates),
  `block.rs` purge, `pruning.rs` for the state tables, `revert.rs`. SQL is read by hand; the tables are row lists; ids of
  `contract_addresses`/`storage_addresses` are list positions. Class definitions are opaque (only their hash and block).
* `Verif/Events`: `storage/src/bloom.rs`, `connection/event.rs` (aggregate and running filters, `events`, tokens, rebuild at
  start-up, save at shutdown), the parts of `block.rs`, `pruning.rs` and `sync.rs` that touch them. The two SipHash functions
  and the sizes are parameters; zstd compression of stored filters is the identity; block number overflow near 2^63 is not
  modelled; queries are atomic except in C48. `rpc/src/method/get_events.rs` and `PendingWatcher::get` of `rpc/src/pending.rs`,
  with tokens as pairs; their string form is in `TokenText.lean`.
* `Verif/Crypto`: `crypto/src/algebra/field` (limb arithmetic of both element types, inversion, square root, the byte, hex, integer
  and bit codecs of `Felt`), `crypto/src/hash/poseidon`, `crypto/src/algebra/curve`, `crypto/src/hash/pedersen`,
  `crypto/src/signature/ecdsa.rs`. The precomputed points in `Tables/` are generated by a script from the constants in the source,
  and the kernel checks each of them. A `u64` is a number below `2^64`, and every wrap-around is explicit.
  Primality of the field prime and of the curve order is proved by Pratt certificates (`Primes.lean`). Not modelled: random
  elements and nonces (`ecdsa_sign` draws a nonce and calls `ecdsa_sign_k`, which is modelled for every nonce), `from_hex`/`to_hex` of `MontFelt`, the num-bigint crate (a parameter).
* `Verif/Gas`: `crates/gas-price/src/{l2,l1,l1_to_fri}.rs` and `process_block` of `pathfinder/src/state/sync/l1.rs`. The floating point
  deviation and the price oracle are parameters. Not modelled: the Ethereum client and the subscription loop around `process_block`.
* `Verif/Common`: `StarknetVersion` of `crates/common/src/lib.rs`: text, number and order.
* `Verif/Commit`: `update_starknet_state` (merkle-tree/src/starknet_state.rs), `update_contract_state` (contract_state.rs),
  `StateCommitment::calculate` (common/src/lib.rs), `merge_state_updates` (pathfinder/src/sync/state_updates.rs), on top of the stored tries
  of `Verif/Trie`. The contract updates are computed on the committed database, as on the connections of the worker threads, and inserted
  in order. Simplified: in batch mode the program has already inserted the state rows of the batch when the system contract and class leaves
  are read; the model reads the rows from before the batch, which differ only in leaves that the merged update overwrites. Not modelled:
  database errors, `verify_hashes`.
* `Verif/Diff`: `crates/common/src/state_update.rs`: the elements that the state diff commitment hashes (the Poseidon sponge itself is
  in `Verif/Crypto`, here a parameter), the lengths, `apply` and the readers of pending data. Not modelled: block hash and commitments inside
  a state update, overflow of `usize` sums.
* `Verif/Cons`: `crates/consensus/src/wal.rs` (log lines, file names, recovery) and the bookkeeping of engines in `lib.rs` and of heights in
  `consensus_task.rs`. The JSON encoding of an entry is a parameter with the assumptions `Codec.Lawful`: no line breaks, parsing gives back the entry,
  no proper prefix parses, and a text followed by another one does not parse. The Malachite engine is not modelled: it appears as
  arbitrary log writes of an active height, with a decision always for its own height. Node runs use readable logs (`recoverLogs_eq` links them to the bytes).
* `Verif/Cons/Stream`: proposal streams of `crates/p2p/src/consensus.rs`; `Verif/Cons/Parts`: `proposal_validator.rs` and the filter for outdated messages;
  `Verif/Cons/Proposal`: one height and round of `p2p_task.rs`, `batch_execution.rs` and the stages of `crates/validator/src/lib.rs`. What checking block
  info, executing transactions and computing a commitment mean is a parameter (`World`), with the one assumption `Sequential` where needed: a list executes exactly if
  its parts do, one after the other. Not modelled: storage errors, receipts and events, peer scores, the rollback of executor state.
* `Verif/Sync` (C39-C41, C62-C64): the p2p synchronisation (`crates/pathfinder/src/sync`). `Pipeline`: the stages of `stream.rs` as
  functions on lists of items, and as tasks joined by bounded channels with an arbitrary schedule; not modelled: cancellation,
  metrics. `Headers`: continuity and verification of headers, `next_gap`, `handle_header_stream`. `Checkpoint`: the header phase of
  `checkpoint.rs` (analysis of a checkpoint, rollback, anchor, header streams with arbitrary peers and interruptions), and
  tracking as far as headers go. `Feed`: the streams of block data from peers (`p2p/src/sync/client/peer_agnostic.rs`), peers being arbitrary lists of
  replies; parsing of a response is a parameter. The block hash is a parameter, assumed injective where a theorem says `Binding`; the signature
  check is an arbitrary predicate; `purge_block` only removes the header row here (its other effects are in `Verif/State`).
* `Verif/Exec` (C76, C77): `crates/executor/src/state_reader.rs`, `state_reader/storage_adapter/concurrent.rs`, `lru_cache.rs`, the class parts of `concurrent_block.rs`
  and of `crates/validator/src/lib.rs`, and the life of a decided block in `crates/pathfinder/src/consensus/inner/p2p_task.rs`. Not modelled: blockifier, native
  classes, parsing of definitions. Assumed: `close_block(n)` gives the state diff of the first n transactions; its migration pairs are new and old compiled class
  hash, as the comment beside the conversion says, and migrated classes are among those with a changed compiled class hash.
* `Verif/Avail` (C78): class parts of `crates/pathfinder/src/state/sync.rs`, `sync/l2.rs`, `sync/class.rs`, `sync/repair.rs`, `crates/storage/src/connection/class.rs`,
  `state_update.rs`, `block.rs` and the RPC methods for classes. Not modelled: compression, parsing, compilation, the pending block (whose classes are not downloaded).
  Assumed of an honest gateway: it gives classes of the hash asked for, and contracts are deployed with Sierra classes only when these are declared.
* `Verif/ClassSync` (C79): `crates/pathfinder/src/sync/class_definitions.rs`, the class stage of `checkpoint.rs`, class parts of `crates/storage/src/connection/state_update.rs`
  and `block.rs`, `get_classes_for_block`, and the conversions of classes in `crates/p2p/src/sync/client/conv.rs`. Parsing, class hashes and compilation are parameters; base64 and
  gzip are taken to be inverse to their decoders. That the stream of answers has, for each block, as many definitions as it declares classes is C64.
* `Verif/Fee` (C80): `crates/executor/src/transaction.rs` (limit search), `estimate.rs`, the loop of `simulate.rs`, `FeeEstimate` in `types.rs` and
  `crates/util/src/percentage.rs`. The executor (blockifier) is a parameter: an arbitrary function of state and limit. That a run that is rolled back leaves no trace is assumed of it.
* `Verif/Trace` (C81): `trace` and its cache in `crates/executor/src/simulate.rs`, and the state that `ExecutionState::trace` runs on. Running transactions is a
  parameter; broadcast channels are modelled by what was sent and whether the sender is gone.
* `Verif/Subs` (C82): the subscription flow in `crates/rpc/src/jsonrpc/router/subscription.rs`, `catch_up` and `subscribe` for new heads and events, and the order of
  commit and announcement in `sync.rs`. Blocks are ids with a list of messages; channels are unbounded queues; pre-confirmed data and pruning are left out.
* `Verif/Subs/Status*` (C83): `subscribe_transaction_status.rs` for one transaction. A block is whether it has the transaction and with which execution status; channels
  are unbounded; handling one announced block is one step.
* `Verif/Subs/Pending*` (C84): the bookkeeping of `subscribe_new_transactions.rs` (receipts: the same without candidates). Transactions are hashes with a filter.
* `Verif/Pend` (C85): `crates/rpc/src/pending.rs` with the conversion and merge of state differences, and six queries with the tag `pre_confirmed`. Maps are lists of
  entries. Not modelled: headers of pending blocks, classes, the JSON of the answers, the gateway fallback of the status query. Whether the data is current is C86.
* `Verif/Pend/Poll*` (C86): `poll_pre_confirmed`, the consumer of its events and `get`. The other events of the queue are the actions that store and remove blocks;
  rounds with failed requests and time are left out.
* `Verif/Commit/StorageProof`, `SpecProof`, `ProofLemmas`, `ProofProps` (C87): `starknet_getStorageProof`. What the root and state tables hold for a block is what
  they held after it (C14, C15). Not modelled: the block hash in the answer, JSON, removal of nodes by pruning (C12).
* `Verif/Rpc/Model`, `Spec`, `Lemmas`, `Props` (C88): JSON-RPC requests and answers. What a method returns is given. Not modelled: text of JSON (serde_json is trusted to
  parse it and to hand out raw values), headers, the `data` of errors, body limits, subscribing itself.
* `Verif/Rpc/Subs`, `SubsSpec`, `SubsLemmas`, `SubsProps` (C89): the life of subscriptions on one connection. Messages are numbers (C82 to C84 say which are made). Not
  modelled: the end of the connection, a full channel, the limit on history, more than 2^32 subscriptions on a connection.
* `Verif/Serve` (C90): serving blocks to peers and reading them. Not modelled: protobuf bytes, the channel to the peer, database errors other than a missing class
  definition, and the definitions of classes (a parameter; see `Verif.ClassSync`).
* `Verif/Conn` (C91): admission, limits and eviction of connections. The swarm of libp2p is the environment: it asks before a connection begins and after the handshake, and
  reports what became of it. Network group and rank of a peer (SHA3 with the node's secret) and the DNS are parameters. Not modelled: the other behaviours inside the
  wrapper except that they may refuse a connection, and the relay and hole punching protocols.
* `Verif/Submit` (C92): submission and status of transactions. The crate `cached` is not in the repository: its `TimedSizedCache` is modelled from its documentation, with
  parameters where versions differ (trusted). Not modelled: parsing of the user's JSON, conversion and compression of classes, HTTP, and the notification of subscribers (C84).
* `Verif/Shown` (C93): the data transfer objects of the JSON-RPC API. JSON objects are lists of fields into which a field is inserted as `serde_json::Map` does; text is a list
  of characters. Not modelled: the `PreConfirmed` and `Pending` variants of blocks, traces (C83 has fee estimates), response flags other than the one for proof facts.
* `Verif/Open` (C94): opening the database. SQLite is trusted to make each statement outside a transaction, and each transaction, durable as one unit. Not modelled: what the migrations
  do (they are arbitrary functions), the journal mode, loading the running event filter (C27), what `prune_block` removes besides the header (C47).
* `Verif/Reqs` (C95): requests to peers. libp2p is trusted to have one handler per connection, to deliver the handler's events at once, to answer each substream asked for once, not to reuse
  connection ids. Which connection, when streams open, fail or time out is open. Protobuf decoding is an arbitrary function with `dec (enc m) = some m`. Not modelled: inbound requests.
* `Verif/Rate` (C96): the bandwidth limit. `governor` 0.10.4 is not in /repo: its rule, its rounding of the interval and its use of a timer are modelled from its published source, and
  trusted, as are timers (drop cancels) and sockets (one waker, used once). Times are natural numbers of nanoseconds, without overflow. Not modelled: the end of a stream, flush and close.
* `Verif/Gate` (C97): the client of the gateway. Trusted: the form-encoding of the `url` crate, `reqwest` (one request for one `send`), `flate2` (any function with an inverse), `tokio-retry`'s
  backoff without jitter. Reading JSON is an arbitrary function. Base URLs have no query. Not modelled: redirects, metrics, errors in making a request, the compression of answers.
* `Verif/Vals` (C98): validators and proposers. Field elements are numbers. Calling a contract is a function of the state of the latest block; making an Ed25519 key from 32 bytes and drawing
  a key at random are arbitrary functions. Not modelled: the RPC methods that show the lists. The engine does not check signatures of votes and proposals (internal.rs `VerifySignature`).
* `Verif/Comp` (C99): compiling in a child process. Reading JSON and the four compilers are arbitrary functions that may fail or panic. The child can be killed at any moment, which stands for
  limits of memory and time, stack overflows and signals. Not modelled: failing to start the child, `setrlimit`, finding the executable, other systems than Unix.
* `Verif/Drive` (C100): the driver of a consensus engine. The Malachite core is an arbitrary function of its state and input; the driver's answers to its effects are constants and belong to it. Votes,
  proposals and values are opaque (their conversions field by field are not modelled). The heap gives any of the timeouts that are due first. Readings of the clock do not go back. Not modelled:
  the map of engines by height (C54), reading and writing the log's file (C44).
* `Verif/Sim` (C101): calls, estimates and simulations. The library (running, fees, traces, errors), hashing, and parsing and compiling of classes are parameters; the library is a function of the
  context, the state, and the transaction. Classes are numbers. Pending data are one header and one update (their merging: C20, C21). Parsing of requests is not modelled, except flags. The choice of
  the API's version is an argument. Not modelled: the chain's name and fee tokens in the context, native execution, conversion of results to JSON.
* `Verif/Upgrade` (C102): revisions 66, 68 and 74 of the schema on the tables and filters of `Verif/Events`. Not modelled: the other tables, progress reports, errors of the database, rows with missing
  events, compression. The two block constants are parameters with the conditions that the released values meet.
* `Verif/Migrate` (C103): revisions 56, 58, 59, 60, 61, 62, 64, 65, 71, 72, 73 and 75 of the schema, leading to the tables of `Verif/State`. Not modelled: class definitions, tries, signatures, rows without a block number (an error
  in revisions 56 and 59), other columns of the headers, revision 76.
* `Verif/Regroup` (C104): revision 57 of the schema. The encodings are a parameter; errors of the database other than violated constraints, and what the threads do after the main thread gave up, are left out.
* `Verif/Feed` (C105): module `transaction` of gateway-types/src/reply.rs. Text is parsed already (hexadecimal, decimal or other strings); what serde's generated code does with missing, repeated and unknown fields and with arrays is modelled after its documentation and is trusted. Arrays in place of nested objects are left out of the model.
* `Verif/Cls` (C106): rpc/src/types/class.rs and rpc/src/dto/class.rs. The text of numbers, base64, gzip and the JSON parser are parameters with the assumption that what is written can be read (`Ext.Ok`), and that a program that is not too long survives compression (`Fits`). That serde reads structs from arrays too is left out. The debug information of a program is taken as it is; it is not hashed. Which of the decompressed programs are accepted is not characterised, only what becomes of them.
* `Verif/Stat` (C107): rpc/src/method/syncing.rs, pathfinder/src/monitoring.rs and the parts of pathfinder/src/state/sync.rs that touch the sync status. The gateway's heads and the downloaded blocks are arbitrary. Block numbers are unbounded; the metrics endpoint and the writing of the answer as JSON are left out.
* `Verif/Agree` (C108): the block methods of rpc/src/method, `to_common_or_panic`, and the queries and writes of storage/src/connection/{block,transaction,reference}.rs they use. SQLite is trusted to enforce its keys, to cascade deletions, to run the queries as written and to give each request one snapshot. Encodings of blobs, the rest of the header, the contents of state updates (C20) and pre-confirmed data (C85) are left out.
* `Verif/Quit` (C109): util/src/task.rs and the end of `node_main` and `main` in pathfinder/src/bin/pathfinder/main.rs. The work of tasks is opaque. Trusted: tokio drops a future at waiting points only, drops a queued blocking closure but waits for one that has begun, and starts nothing while a runtime is dropped. Threads started with `spawn_std`, the worker pool of the p2p feature and panics inside tasks are left out.
* `Verif/Natv` (C110): executor/src/state_reader/native.rs and the choice of code in state_reader.rs:127-165. The compiler and parsing are parameters (a result, an error or a panic); metrics and the cancellation token are left out. Trusted: `SizedCache` is a least-recently-used map, and the mutex makes `get` one step.
* `Verif/Errs` (C111): rpc/src/error.rs without the wording of messages, executor/src/error_stack.rs, the error conversions of the three methods that submit transactions. The documents in specs/rpc are transcribed in Spec. How blockifier makes a stack from an error, and the formatting of panic data, are not modelled.
* `Verif/Casm` (C112): common/src/casm_class.rs and rpc/src/method/get_compiled_casm.rs after the database. JSON is a type of values with hex numbers as a case of their own; the conversions that serde derives are written out as they are documented (duplicates and missing fields are errors, unknown fields are ignored), not modelled from the macro.
* `Verif/Release` (C113): pathfinder/src/bin/pathfinder/update.rs without HTTP. The parser and the order of versions of the crate semver are written from its documentation and are part of the trusted base; the order of build metadata is a parameter.
* `Verif/GwTrace` (C114): rpc/src/method/trace_block_transactions.rs:230-655. How the JSON of the gateway is read, and how the result is written (rpc/src/dto/simulation.rs), are not part of it; numbers are naturals.
* `Verif/TraceOut` (C115): rpc/src/dto/simulation.rs:18-631, dto.rs:143-207, method/trace_block_transactions.rs:657-770. The texts of felts and the order in which fields are printed are not part of it; the fee estimate of a simulation (743-759) is not written.
* `Verif/ExecReceipt` (C116): executor/src/types.rs:374-400, 664-717, 1012-1149. The conversion from the library's records (`to_execution_info`) and the fee are not modelled; the numbers of events are given.
* `Verif/BatchExec` (C117): validator/src/lib.rs:496-695, 790-826; executor/src/concurrent_block.rs:37-243. The library is a function from the transactions so far to the outcome of the last one. That it executes in order, gives one outcome per transaction, and commits the first `n` on closing is assumed.
* `Verif/Class` (C75): `crates/class-hash/src/lib.rs` from the parsed class on. Not modelled: parsing of the JSON text (duplicate keys, key order, number
  syntax), Keccak itself. Assumed: with `arbitrary_precision` a number is printed as its text; serde_json escapes as in its table.
* `Verif/Head` (C46, C72-C74): `consumer` and what it does to headers, `l1_state` and `refs`; `sync`, `bulk_sync`, `reorg` and the cache of
  `crates/pathfinder/src/state/sync/l2.rs`; the pending updates of `crates/ethereum/src/lib.rs`. Not modelled: bodies, state (whether the state root
  comes out right is an input), classes, pending blocks, signatures, the capacity of the cache (when it evicts is an input), time.
* `Verif/Body` (C69-C71): the tables `transactions` and `transaction_hashes` of `crates/storage/src/connection/transaction.rs`, and the stages for
  transactions and events in `crates/pathfinder/src/sync`. Not modelled: encoding of the columns (bincode, zstd), the event filter but for its next block,
  chunks of several blocks in one database transaction, pruning. The running filter really advances before the database commits; here it does so with it.
* `Verif/Block` (C65-C68): `crates/block-commitments/src/lib.rs`, `verify_gateway_block_commitments_and_hash` and the hashes of
  `crates/common/src/transaction.rs`. Pedersen, Poseidon and Keccak are arbitrary
  functions (`Hashes`); a theorem ends in "or `Collide`" or "or `Broken`", which name two different inputs among those hashed for the two blocks with one
  hash, or one that hashes to zero. The trees are those of `Verif/Trie`. A receipt keeps what is hashed, the L2 gas, and one number for the rest. In the
  commitments a transaction is its hash and signature; `TxModel` has the transactions themselves. Not modelled: panics and errors of the conversion of a
  gateway block, the message hash of L1 handlers.
