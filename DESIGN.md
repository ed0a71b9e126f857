# Formal model of ethereum/trin in Lean 4: design

This directory holds a hand-written Lean 4 model of the decision logic, codecs and state
machines of trin (source read at the pinned commit in `/repo`), and theorems about it.
The properties are listed in `properties.jsonl`, their status in `MANIFEST.json`, the
mutation log in `seeded/LOG.jsonl`.

## Layout

* `lean/Verif/Model/*.lean`: the model. Each definition cites the file and lines it models
  and says where it simplifies.
* `lean/Verif/Lemmas/*.lean`: helper lemmas only.
* `lean/Verif/Props/*.lean`: for each property a small specification written without the
  model's helpers, the property theorems, and `example`s showing that a concrete,
  non-trivial case meets the hypotheses.
* `lean/Verif.lean` imports everything.

Theorem names start with the property id (`C09_...`). A theorem ending in `_partial` proves
part of its property; the comment beside it says what is missing. A theorem ending in
`_violated` proves, with a concrete witness, that the code does not have the full property.

## Trusted base

* Lean 4.33.0's kernel and the three standard axioms `propext`, `Classical.choice`,
  `Quot.sound`. No axiom is added; no `sorry`, `native_decide` or `bv_decide` is used.
* The reading of the Rust code: nothing ties the model to the code but the line citations.
* Environment assumptions, always visible as parameters or hypotheses of theorems:
  * hash functions (sha256, keccak256) are arbitrary functions; soundness theorems conclude
    "the claim holds, or two different inputs that were hashed have the same hash". The colliding
    inputs are confined to explicit finite lists (the pairs hashed by the verifier and the pairs hashed for
    the genuine data), because the mere existence of a collision is true of every hash function;
  * BLS signature verification is an arbitrary predicate;
  * random choices are arbitrary lists supplied from outside, quantified over;
  * clock readings are arbitrary numbers supplied with each event;
  * SQLite is modelled as a list of rows with the semantics of the statements used.
* Library contracts that are written into the model (each named where it is used):
  * `ethereum_ssz` and `ssz_types`: offsets, fixed and variable parts, union selectors and length
    limits as in `Model/Ssz.lean`; `tree_hash` of a container is the Merkle root of its field roots
    padded with zeros; `rs_merkle` proofs list the siblings bottom-up;
  * `discv5`'s k-bucket table is a list of entries per distance; ENR encoding is an arbitrary
    injective codec with a length bound; `tokio` semaphores count permits;
  * `hex`, `unsigned-varint`, UTF-8 and `rand` follow their documentation, with random values as inputs.
* Rust arithmetic: `Nat` with explicit overflow/underflow checks where the code can overflow
  and the property depends on it; bit vectors where the code manipulates bits.

## Plan per property

| id | what is modelled | how it is proved |
|----|------------------|------------------|
| C01 | ids as `BitVec 256`, distance as xor, `log2` by leading zeros | bit-level extensionality, induction on width |
| C02 | LEB128 `u32` writer/reader, `encode/decode_content_payload` on byte lists | round-trip by induction over the list; structural theorem for arbitrary input |
| C03 | `AcceptCode`, the two accept codecs (SSZ bitlist, SSZ byte list) | round-trip, induction in chunks of 8 bits |
| C04 | SSZ container/list/union encoding as used by `Message` | round-trip per message, generic list-of-variable-items codec lemma |
| C05 | `pop_while_ssz_bytes_len_gt` and the two handlers' size accounting | induction over the popped list |
| C06 | `to_bytes`/`try_from_bytes` of the four key types | round-trip + injectivity |
| C07 | `range_content_id` on `BitVec 64` | bit-level inversion |
| C08 | `Nibbles` encode/decode | round-trip both ways |
| C09, C10, C52 | `FindNodeQuery` and the peer bookkeeping of `FindContentQuery` as a state machine over events (poll, success, failure with clock) | invariant by induction over event lists, tying the state to the caller's record of calls and poll results (`Props/QuerySpec.lean`) |
| C11 | `FindContentQuery` likewise, with the validation tasks of the service and their channel | invariant |
| C12 | `QueryPool` over an arbitrary kind of lookup, with an arbitrary iteration order per poll | invariant over op lists |
| C13 | `AcceptQueue`; the delay map's choice of the expired entry and the random fallback are inputs | invariant over op lists, tying the queue to the record read off the callers' history |
| C14 | `handle_offer` with everything it asks of its surroundings as inputs | decision logic, stated outright; queue part by induction over the keys, against the C13 record |
| C15 | `process_accept`, `decode_payload` | list lemmas; end-to-end composition with C02, C03, C14 |
| C53 | the task spawned by `handle_offer`, over an arbitrary store, validator and network | invariant over the delivered items and the fallbacks |
| C16 | node selection in `kbucket.rs` over an abstract table | sortedness / permutation / optimality |
| C17 | `findnode_log2distance` | closed form, then arithmetic |
| C18 | `latest_common_protocol_version` | list lemmas |
| C19 | `gossip_recipients`, `select_content_recipients`, `random_peers`, `batch_interested_enrs`, `propagate_put_content_cross_thread`, the random choices as functions given from outside | the maps are folds over assignments; list lemmas |
| C20-C24 | `IdIndexedV1Store` and `EphemeralV1Store` over a row list; pruning durations, SQLite's choice among equal distances, `f64` arithmetic and kill points are inputs | refinement to a map and invariants over all histories with restarts and kills; C22 (full distance, reporting) and C24 (repeated insertion) are violated: witnesses plus what holds |
| C25 | capacity split | arithmetic |
| C26 | `create_store` | case analysis, induction over opens |
| C27 | beacon storage and cache, SQL statements as list operations, codecs as parameters | invariant: each table equals a per-key record of the history |
| C28 | `ChainHeadStore` | invariant over updates |
| C29, C30 | `verify_merkle_proof`, `MerkleTree` | induction over depth; collision-or-equal |
| C31-C35 | header validator, accumulator, summaries provider | composition of C29/C30; C33 is violated: witness |
| C36, C37 | trie proof validation over abstract decoded nodes | induction over the proof |
| C38, C39 | e2store entries, era1/e2hs writers | round-trip by induction |
| C40-C42 | light client: verify, apply, bootstrap, `sync`, `advance`; header and committee roots | invariant over arbitrary histories of messages; honest signers and genuine states are per-message hypotheses, proofs bind up to hashed collisions |
| C43 | `random_32byte_array`, `generate_random_node_id` | bit-level |
| C44 | hex codec | round-trip |
| C45, C46 | bridge census, range split | invariant / arithmetic |
| C47 | semaphore pair | invariant |
| C48 | ping/pong processing | decision logic |
| C49 | ping payload types, `ClientInfo` text | round-trip both ways |
| C51 | state content values (SSZ) | round-trip both ways, layout |
| C54 | beacon content values (SSZ, per fork) over generic container codecs | soundness per codec, composed; layout against an explicit byte format |
| C50 | `build_*_proof` over beacon blocks seen as field roots | root of the built branch by induction over depth |
| C55 | `BeaconValidator::validate_content` over C54 and the light client's verification, oracle answers as inputs | decision logic, stated outright; summaries bound to the state by C29 |
| C56 | `StateStorage::{put,get,should_we_store}` over the store of C20 and the values of C51 | refinement to a history of the store (C20), with C37 and C51 for the values |
| C57 | content values and their SSZ parts, over arbitrary library types with faithful encodings | container and list lemmas of Ssz; sums of lengths for minimality |
| C58 | `validate_content` with the header oracle as an arbitrary answer, over C57 and the header validation of C31-C33 | exact conditions, then soundness against the block a header commits to; negations for withdrawals, malleability and panics |
| C59 | `EvmBlockState` as a reader with its cache and code owners, over the trie of C36 and the content of C37/C51; the network is an arbitrary answer at each request | invariant over histories of requests; soundness and completeness of the traversal by induction over rounds; negations with general witnesses |
| C60 | the endpoints as functions of what the two networks answer, over C58 and C59 | composition of C58 and C59, with every node that a collision can involve traced to an answer of the network; completeness; negation for withdrawals |
| C61 | the table as a map with the library's functions under a contract, the ping queue, the messages sent; one step per event; all intermediate tables kept | every event is a chain of single-entry changes of seven kinds (`Path`, `Change`); induction over histories; negations with concrete histories |
| C62 | the walker as a stack machine over a database function; decoding and hashing are parameters | a relation `Visits` between stack and output that composes; induction over the representation of the trie; soundness by an invariant of the stack |
| C63 | bounds as numbers with arithmetic modulo 2^256, shifts as in the code | packed nibbles are the number in base 16; division with remainder; the slices are the classes of value / size |
| C64 | the items as a list in the order of their index, selection as a filter on the index | items of each leaf from the walk of its storage; a key has one leaf; permutation of residue classes |
| C65 | the RocksDB as one byte-keyed map, all operations of EvmDB on it; trie library and RLP as parameters | refinement to plain maps: invariant over operation histories with key-separation lemmas; unique content of the account trie |
| C66 | the items as a list, from partial walks; caches as in C65 | a new node has only new ancestors (by transfer of stored nodes between tries), so the partial walk reaches it; invariant on the caches over operation histories |
| C67 | the driver loop over inputs for downloads, stop signal and limits; disk state apart from memory; any EVM as a function of state and block hashes | loop invariant relating database, pending changes and stored hashes to the chain; induction over histories; witnesses for what fails |
| C68 | fork table, environments, payments as lists of entries, the executor state with everything that is kept between blocks | equivalence with a relational specification for any earlier executor state; sums over lists; all cases of the fork table |
| C69 | state machine with the map of blocks, the LRU cache, answers of the nodes as inputs | induction over events; for following a chain an invariant on the order of the LRU cache that shows that the last 32 receipts are never evicted |
| C70 | the four builders with all 21 header fields, hashes and encodings as parameters | case analysis per fork; equivalence with an independent description of the block of a payload |
| C71 | Model/E2hsGen: search, collect, provider, receiptsRange, newBuilder, preBlock, postBlock, validateBlock, writeLoop, run | C71_file by induction over the blocks written with C39 (writer) and C70; C71_complete_partial by the invariant of the binary search, induction over downloads and C34, C50, C70; violations by invariants over all rounds |
| C72 | Model/HeadGen: findFirst, firstFinalized, stateForNext, updateAnchors, buildBlock, round, buildFile, fileName, extractIndex, lastFileName, start, amount, parts, upload, tick, Sys.step | C72_bucket by an invariant over all histories with C39 and C70; C72_complete_partial by induction over rounds and blocks with an invariant on the slot of the builder; the rest by cases |
| C73 | Model/Overlay: interpret, sendTalk, processOne, serve, handleRequest, sendPing, sendFindNodes, sendFindContent, sendOffer, sendOfferTraceMany, sendOfferTrace, getEnr, lookupNode, lookupEnr, addEnr, putContent, mgrStep, findEnr | two-node theorems by composing C02–C05, C14–C16, C19, C48 through the codec; matching by induction over event histories against "first answer after submission" |
| C74 | Model/Events: Bimap, ids, sendProtocol, dispatchTalk, dispatchEvent, step, run, start, millisToEpoch, slotToTimestamp, currentSlot, Cache, findEnr, recvFrom, sendTo, consolidate | one-step lemma per party against `meantFor` over wire bytes, induction over input lists; LRU by an "only these are in front" invariant |
| C75 | Model/NodeConfig: parsers, Flags, Config, newFrom, storageConfig, modules and their methods, launch, runNode, run | each parser against the text it is printed as; newFrom against the structures Consistent and Settings by going through its checks; the server by disjointness of the method names of the modules |
| C76 | Model/BridgeCli: parsers of mode, range and id, parse, subnetworksFlag, startNode, choose, main | parsers against a relation Numeral and the texts built from it, by inverting split; choice by cases against an inductive table |
| C77 | Model/BeaconBridge: five tasks as step functions over shared values, World (all answers), apply, exec | Genuine by an invariant on waiting points; repetition by two abstract machines (guarded download, compare and store) with inductive invariants; acceptance by C54 and C55 |
| C78 | Model/E2hsBridge: launcher, block, content and offer tasks as a tree-shaped state, two semaphores, clock; step per event | Invariant of all executions; liveness by a lexicographic rank; the range by C46, the files by C38/C39, links by C71 |
| C79 | Model/DataDir: file system as a function from paths, processes as phase machines, events spawn/step/halt | Invariants over all event lists; hex by C44 |
| C80 | Model/Era: index of slots, forks, reading and writing over E2store entries, range requests | Exact characterisation by the records (C38), list induction |
| C81 | Model/E2ss: writer, reader, export, import over E2store records and the execution database (C65) | Exact characterisation of files, invariant of C65 over the import of each account, list induction |
| C82 | Model/Lookup: one content lookup of the overlay service with its trace, tasks, effects and JSON-RPC answers, over the query of C11 | Projection to the query and its record (C09, C11), invariant over histories, list induction |
| C83 | Model/JsonRpc: the methods as a typed family, endpoints, the three handlers, JSON of all answers, errors; discv5_lookupEnr and node info | Read-back lemma for each JSON answer; case analysis over methods against a specification without JSON; list induction |
| C84 | Model/LightNode: builder, settings, file, checkpoint services, fallback, start, sync, turns, head, pauses, BeaconSync; the RPC as state machine, the portal RPC on lookups and clock | Invariants kept by each request and message (anchored at the root, on the chain, head not ahead of the clock), induction over attempts and turns; request log as prefix of a plan; vote counting by permutation-invariant maximum |
| C85 | Model/NodeLookup: start, poll, answers of peers, records kept, answer; targets of initial lookups and refreshes | Refinement to the lookup of C09 with the record of its caller; invariant over histories (records cover known ids, target only as failure, first record of each id), swap-remove on lists |
| C86 | Model/CensusNetwork: peer table with deadlines, liveness check, rounds of exploration, manager actions, census of three subnetworks | Refinement to what the exchanges show, by induction over the life; counting for the end of the exploration; per-node locality for the order |
| C87 | Model/Gossiper: schedule machine with clock, two semaphores, calls in stages, tasks with waiting peers and offers under way | One invariant along the run that ties every task to its part of the log and the permits to the offers; a measure for the end |
| C88 | Model/Provider: calls append to a log of requests and pauses; the world answers as a function of the whole log | Case analysis of the attempts; induction over rounds and batches; injectivity of decimal and hexadecimal texts |
| C89 | Model/OwnRecord: decisions over the answers of STUN server, gateway, interfaces and clock, with a log of what is done outside | Case analysis; induction over the bootnodes; pigeonhole for the buckets |
| C90 | Model/Streams: any number of streams advanced in any order, with the counters | One invariant over events and state; case analysis of the phases |
| C91 | Model/HistoryNode: store (C20), validator (C58) and the header questions of the validator put together; any sequence of events | One invariant over all stored, held and answered content; the validator's theorems for what is accepted |
| C92 | Model/StateBridge: the loop, its offers and permits as a machine with any sequence of events; ranges on the execution driver (C67); snapshots on the import (C81) with kills | Invariant over events, a measure for the end; induction over rounds; invariant over launches |
| C93 | Model/BeaconNode: the store (C27), validator (C55) and light client (C40-C42, C84) of one node as a machine with events in any order | Invariant over events with the source of each stored value; refinement of the light client thread; trust carried over restarts |
| C94 | Model/StateNode: the store (C56), validator (C37) and lookups of one node as a machine with events in any order | Invariant over events with the source of each stored value; composed with C91, C59 and C60; induction over the items of a snapshot (C64) |
| C95 | Model/Exchange: joins the models of requests (C73), offers (C14, C15, C53), gossip (C19) and stores | Composition of those theorems; induction over the chain of nodes and over the items a store takes |
| C96 | No new model: Model/E2hsGen, E2hsBridge, HistoryNode, HistoryValidator and EthRpc on the same library | Composition of C71, C78, C58, C57, C60 with an induction over the parcels a node gets |
| C97 | No new model: Model/TrieWalker, StateDiff, StateBridge, StateNode, EvmState and EthRpc together | Induction over the blocks with C66; C92 for the bridges, C94 for the node, C59/C60 for the answers |
| C98 | No new model: Model/LightNode, LightClient, BeaconNode, BeaconValidator and BeaconBridge together | Signatures, periods and committees are followed through verify and apply; induction over the periods of a start and over turns; rows of the store only grow |
| C99 | Model/FullNode: the three networks of one process, with the header oracle that joins them | C93 gives the summaries, binding of SSZ proofs (C29–C32) over every past form of beacon blocks gives the header, C91 the body, C60 the state; the runs are projected to each network |
| C100 | Model/EthCall: the defaults, the environments, the database behind the EVM and the report of the result; the EVM is an arbitrary program of questions | induction over the program with C59 for each answer after any past, C60 for the header, C68 for the fork |
| C101 | Model/Rlp: headers, strings and integers of alloy-rlp; Model/ProtocolInfo: both entries and the negotiation | reader and writer against RLP as in the Yellow Paper, in both directions, for all bytes; induction on the search |
| C102 | Model/HistoryContent: lists and integers of RLP, receipts of EIP-7642, the content value with its validation | reader against the format in both directions, by induction on the length of the bytes; soundness up to collisions of the items compared |
| C103 | Model/TreeHash: SSZ and tree hash of basic values, vectors, lists, bit lists and structures; Model/BeaconBlock: all parts of the blocks of four forks | every combinator keeps exactness and binding, so every type does; layout and hash against a specification written out field by field |
| C104 | Model/BeaconState: all fields of the states of four forks, the proof of the summaries, historical batches | every combinator keeps exactness and binding, so every state does; layout and hash against a specification written out field by field; proofs against the tree of the fields |
| C105 | Model/LcJson: serializers of numbers, hex strings, structures, enums and answers of providers | each combinator reads exactly what the specification of its part says, writes it, and panics only because of a part; the structures are put together from them |
| C106 | Model/Double: doubles as multiples of 2^-1074, rounding to nearest even, the computations of the pruning strategy | relative error of each rounding, carried through the computations; the limit by induction over the statements |
| C107 | Model/BlockJson: readers and writers of every structure of a block, the untagged enumerations, the answer of a provider | each field by its reader; structures by the names of their members; forks told apart by the fields that the later one has and the earlier one lacks |
| C108 | Model/StateJson: readers and writers of states of every fork, the untagged enumeration, the answer of a provider | each field by its reader; structures by the names of their members; a Deneb document has all fields of Capella |
| C109 | Model/Nimbus: the URLs and answers of NimbusRpc, the slots of checkpoint services, the settings of main and its start | requests against the documents of C105; starts and turns by the invariants of C84 and a log of the URLs |
| C110 | Model/RpcServers: selections of modules, lists of origins, servers on shared and separate addresses, starting them | starting by cases on shared addresses; lists of origins by splitting at commas and trimming white space |
| C111 | Model/ExecTraces: the choice of blocks to trace, the files made in the loop of C67, the command | the loop with files is the loop of C67 in its first part; each step adds traces of its block only, and files of different transactions are different |
| C112 | Model/E2ssStats: the tool on the reader of C81 | the loop gives a result exactly for the groups that the file says, by induction over rounds and over the groups |
| C113 | Model/SlotClock: the clock of a network, the interval of the beacon node, the wait and the rounds of the bridge; each reading of the clock is a parameter | arithmetic; induction over readings and over rounds |
| C114 | Model/Reports: the labels, the counters, the requests without an answer, the places that report; the gauges with the store of the head | invariants over histories; the gauges as a machine of one head, its last tick and its record slots |
| C115 | Model/OfferSummary: the client of a name, the groups of the map, the line, the lines that are printed while the offers end (the counting is that of Model/StateBridge) | invariant of the map (codes without repetition, each with its clients in order), then the report as a function of the offers that have ended |

Not expressible here (not attempted): wall-clock performance, memory safety, the tokio
runtime's scheduling fairness, SQLite's crash atomicity itself (assumed: a statement is
atomic), the discv5 and uTP protocols below the talk-request boundary, EVM execution.

## Disagreements between code and property found while reading

1. `IdIndexedV1Store::insert` and `EphemeralV1Store::insert` use `INSERT OR IGNORE` but always
   add the size to the usage statistics (C24 violated for repeated insertion).
   A key inserted often enough makes the store delete everything it has while far below its capacity,
   and report nothing of it (`C24_duplicate_violated`, `C22_unreported_violated`).
2. `prune` does not return the last batch when the number of deleted rows differs from the
   number requested; and it returns early without updating the radius when the batch size is 0 (C22).
3. After pruning the radius is taken from the row with the greatest 32-bit distance prefix; rows
   tied on the prefix can be farther than the radius (`C22_full_distance_violated`; C22, C23 hold up to that
   precision). The node id check on opening has the same precision.
4. `verify_merge_to_capella_header` indexes `historical_roots[slot / 8192]` with an attacker-chosen
   slot: out of bounds aborts the task (C33 violated).
5. `StateValidator` does not check the state root against a header (the check is disabled by a
   constant), yet reports canonical validity (C36/C37 hold relative to the root in the proof only).
6. `AcceptQueue`: a duplicate offer refreshes the expiry.
7. The progress flag of the lookups is overwritten by each returned peer, so only the last
   returned peer decides whether a lookup counts as stalled (`C52_progress_violated`; does not affect C09/C10).
8. `E2StoreMemory::deserialize` panics on 1..5 trailing bytes and on an entry length that
   overflows `u32` when the header size is added (C38 holds for well-formed lengths).
9. Beacon cache: an older update put later overwrites a newer one (C27 is stated for what is cached).
10. `latest_common_protocol_version` assumes V0 for a peer whose record has no version entry, even when
    the local network does not support V0 (C18).
11. `block_range_to_epochs` overflows for the last `u64` epoch (C46).
12. A combined storage configuration naming an inactive subnetwork reaches `unreachable!` (C25).
13. Ping/pong payloads longer than 1100 bytes are silently cut (C04); a `ClientInfo` text over 200 bytes is
    cut on encoding and then not decodable, and fields containing separators do not survive (C49).
14. NODES records may be followed by extra bytes after their RLP list (C04); CONTENT record lists reserve
    4 bytes that are not needed (C05); FIND_CONTENT takes the 32 closest before removing the asker, so it can
    answer 31 although more are known (C16); a limit of 0 still returns one node.
15. `MerkleTree::finalize_deposits(0)` finalises the first leaf (C30 needs a count of at least 1);
    `generate_proof` debug-asserts for indices beyond the leaf list.
16. `Node::traverse` rejects a leaf whose key is empty, so an account whose leaf sits at the full depth of
    the trie has no accepted proof (`C36_full_depth_violated`; soundness is not affected).
17. `Era1::deserialize` and `E2HSMemory::deserialize` trust the block count of the index: a count above the
    number of blocks aborts (`C39_era1_count_violated`, `C39_e2hs_count_violated`).
18. `is_valid_checkpoint` subtracts the bootstrap slot from the current slot before the header has been
    compared with the checkpoint: any peer's bootstrap with a future slot underflows
    (`C42_future_violated`; the acceptance rule itself, C42, is not affected).
19. A lookup at capacity does not examine the waiting times of peers behind a closer peer it cannot ask, so a
    dead peer can hold it until the overall timeout (`C10_timeout_violated`).
20. When the content of a peer is to be fetched over uTP and the peer's record is unknown or has no common
    version, the validation task ends without telling the lookup, which then waits until its overall timeout
    (`C10_dropped_task_violated`).
21. `process_received_content` replaces the received content by the locally stored value without validating
    what was received (`C11_local_value_replaces`).
22. Lookup ids wrap around after 2^64 lookups and then replace running ones (`C12_id_wrap`).
23. The accept queue removes at most one expired key per offer, and a refused offer of a key puts off its expiry: a
    transfer that was never ended blocks its key for as long as peers keep offering it
    (`C13_stale_refresh_violated`, `C13_stale_one_at_a_time_violated`).
24. `single_fallback_find_content` returns early for keys not affected by the radius without removing them from the
    accept queue: after a failed transfer a beacon key stays refused (`C53_keys_freed_violated`), with 23 possibly for
    ever.
25. `process_accept` pairs the verdicts with the offered items without comparing their number. Harmless: surplus
    verdicts are ignored and only offered content is sent (`C15_only_offered`).
26. `propagate_put_content_cross_thread` returns the number of selected peers, also when no transfer slot was free and
    nothing was offered (`C19_publish_count_violated`).
27. A content item that occurs twice in a batch collects each interested peer twice: the limit of eight and the four
    closest are counted with repetition, so fewer distinct peers are selected, and they are offered the key twice
    (`C19_repeated_item_violated`).
28. Beacon store, update ranges: `should_we_store` declines a range as soon as one period is stored, so a partly stored
    range is neither accepted nor returned (`C27_partial_range_violated`). `start_period + count` wraps around in a
    release build: such a key is answered with an empty list, and a put for it stores nothing and succeeds
    (`C27_wrapping_range_violated`). The loop over the periods runs over `count`, a number sent by the peer: an offered
    key with a huge count keeps the store lock for as many lookups (not a property of results, not proved).
29. Beacon store: bootstraps are stored under the root of their header and nothing compares it with the key
    (`C27_bootstrap_key_violated`); older summaries replace newer ones (`C27_regress_violated`, see also 9); a failed
    write of an update is only logged (`C27_lost_update_violated`).
30. The fork digest of beacon content values is read with `bytes[0..4]`: a value shorter than four bytes, also as an
    item of an update range such as the value `04000000`, aborts decoding instead of being refused
    (`C54_total_violated`).
31. `BeaconValidator` does not compare a bootstrap with its key (the block root), nor a range with its start period,
    checks neither the committee and branch of a bootstrap nor execution headers, and accepts updates signed by a
    single committee member; without an answer of the light client it declares everything of the right form canonically
    valid (`C55_key_ignored`, `C55_bootstrap_key_violated`, `C55_committee_unchecked`, `C55_execution_unchecked`,
    `C55_one_signer_violated`, `C55_unchecked`). The light client itself checks all of this again before use (C40-C42).
32. `ssz_header::decode`, `BlockBody` and `Receipts` decode each RLP or EIP-2718 item with `decode`, which ignores what
    follows the item: content values of the legacy history network are not canonical, and a peer can append bytes to
    every header, transaction, uncle list, withdrawal and receipt (`C57_header_canonical_violated`,
    `C57_body_canonical_violated`, `C57_receipts_canonical_violated`). A header of more than 2048 bytes is cut off
    silently when encoded (`C57_oversized`).
33. `BlockBody::validate_against_header` compares the withdrawals root only if the body has withdrawals: the body of
    any block after Shanghai is accepted with its withdrawals left out (`C58_withdrawals_violated`). `validate_content`
    also takes the header from its own network without comparing its hash with the key; harmless as long as only
    validated headers are returned (C11).
34. `EvmBlockState::contract_storage_at_slot` starts a traversal at the storage root even if it is the root of the
    empty trie. The bridge never offers that node, so `eth_getStorageAt` of an account without storage fails instead of
    giving zero (`C59_empty_storage_violated`).
35. The reader takes only the content form without proof (`trieNode`, `contractBytecode`) and fails on the form with
    proof. The validator accepts both under the same key, so a peer that answers FIND_CONTENT with the form it was
    offered makes a read fail (`C59_proof_form_refused`).
36. `fetch_block` returns whatever withdrawals the fetched body has; as a body without withdrawals is valid
    (disagreement above), `eth_getBlockByHash` and `eth_getBlockByNumber` may return a block of after Shanghai without
    them (`C60_withdrawals_violated`).
37. Peers can be in the table, connected, and never be pinged again: after a failed request a peer is taken out of the
    ping queue (`process_request_failure`), and a later request from it marks it connected without queuing it again
    (`register_node_activity` only calls `update_node_connection_state`) (`C61_unpinged_violated`). The same holds for
    nodes that entered as pending (`C61_pending_unpinged_violated`) and for nodes given by `add_enr`
    (`C61_added_unpinged_violated`).
38. `EvmDB` keeps accounts (by keccak(address)), codes (by keccak(code)), block hashes (by keccak(32-byte number)) and
    account trie nodes (by their hash) in one RocksDB key space. Whoever deploys a contract whose runtime code is the
    20 bytes of an address overwrites the record of that account: reading it and every later commit that touches it
    fail (`C65_code_as_address_violated`). A code that equals a recent block number in 32 bytes overwrites that block
    hash, so BLOCKHASH gives the number (`C65_code_as_number_violated`).
39. `execute_block` returns before `manage_block_hash_serve_window` for block 0, so the hash of the genesis block is
    never stored and BLOCKHASH(0) is an error in blocks 1 to 256 (`C65_genesis_hash_violated`).
40. `TrinExecution::commit` (execution.rs:130-152): the changes are written one by one and the position after them.
    After a crash in between, blocks are executed again on a state that has some of their changes; the state root never
    matches again (C67_crash_in_commit_violated).
41. `manage_block_hash_serve_window` (block_executor.rs:237-256) deletes the hash of block n-256 when block n is
    executed, before anything is committed. After a crash, blocks that are executed again do not find hashes they need
    (C67_block_hash_violated).
42. The state root is compared after the changes are in the database (execution.rs:135-142): a block from a bad file
    makes the database unusable (C67_bad_block_violated).
43. After an error, `E2HSManager` is one block ahead of `ExecutionPosition`: `process_next_block` called again executes
    the block after, and does not stop there (C67_retry_violated). After a failed download its handle is gone and all
    later calls fail (C67_download_violated; e2hs/manager.rs:109-112).
44. `get_spec_id` (spec_id.rs:4-32) has no entry for Prague: blocks from 22431084 on are executed with the rules of
    Cancun (C68_prague_violated), and set-code transactions hit `unimplemented!` (e2hs/types.rs:28;
    C68_set_code_violated). The `SpecId::PRAGUE` at the end of `get_spec_id` is never returned.
45. Ephemeral bridge: receipts are cached by block number (ephemeral_history/mod.rs:48,247), so after a reorg the
    receipts of another block are offered (C69_receipts_violated).
46. Ephemeral bridge: the walk for a final period starts at the parent of the checkpoint block (mod.rs:203). When the
    first slot of the period is skipped the checkpoint block is the last one of the period; it is not offered and then
    deleted (C69_skipped_slot_violated).
47. Ephemeral bridge: blocks are removed before their period is checked (mod.rs:206-214). When an older block is still
    there (a checkpoint was missed) the error discards all blocks of the period (C69_missed_checkpoint_violated).
48. `ExecutionHeaderBuilder` converts the base fee with `.to()`, which panics when the number does not fit into 64
    bits, before the block hash is compared (builders/header.rs:43, 81, 120, 160). A beacon block from a faulty node
    aborts the program instead of giving an error (C70_base_fee_violated).
49. C71: a failed attempt of the single E2HS generator leaves its temporary file, which `E2HSWriter::create` refuses to
    overwrite: all later attempts for that index fail until someone removes it (`C71_retry_violated`).
50. C71: the downloads of the single E2HS generator are continued with the index that a file states, not with the one
    it was asked for: an archive whose files state the previous index makes it download the same file for ever
    (`C71_endless_violated`); the limit of three files is only checked after the loop.
51. C72: when the first slot of a period has no block and the node has no state for it, the head generator uses the
    state of the next slot, in which the first root of the period is already replaced; no proof verifies and it stops,
    again and again (`C72_skipped_violated`).
52. C72: `last_file_name` ignores an error after the first page of the listing (`while let Ok`), so that the generator
    starts again with an index that the bucket already has (`C72_listing_violated`); and keys are not in the order of
    indices from 100000 on (`C72_order_violated`).
53. C72: the number of blocks that can be proven is a subtraction that underflows when the node is behind the bucket
    (`C72_behind_violated`), and the search for a state has no limit while states are too early
    (`C72_endless_violated`).
54. C73: `lookup_enr` takes the record with the highest sequence number of all nodes that the lookup returns, which are
    the closest nodes and not only the one asked for, and does not check the record with which a node answers for
    itself: it returns records of other nodes (`C73_lookup_enr_violated`).
55. C73: `put_content` reports `stored_locally: true` although the store failed (`C73_put_violated`).
56. C73: if one side has an old record of the other, they frame content differently and content above 1165 bytes does
    not arrive (`C73_version_skew_violated`).
57. C73: `send_offer` returns the verdicts of a peer without comparing their number with the offer
    (`C73_offer_length_violated`); a ping with an error payload can be sent (`C73_ping_error_violated`).
58. C73: `add_enr` succeeds for a record that only waits for a place and that `get_enr` then does not find
    (`C73_add_pending_violated`); it replaces a newer record by an older one and forgets the radius
    (`C73_add_older_violated`).
59. C74: the test networks Angelfood and Sepolia have the same protocol identifiers, so that requests of one are taken
    by nodes of the other (`C74_testnets_violated`); the versions they announce do not overlap, which stops those
    exchanges that negotiate a version.
60. C74: `send_talk_req` aborts for a subnetwork that the network does not have, such as History on a test network
    (`C74_send_violated`; no caller does that today).
61. C74: an event whose destination is not one of the three running subnetworks is dropped with a log line
    (`C74_event_lost_violated`).
62. C74: `slot_to_timestamp` cuts the slot to 32 bits (`C74_slot_times_violated`); `millis_to_epoch` wraps
    (`C74_timestamp_violated`).
63. C74: `Discovery::find_enr` prefers the record of the last session to a newer one in the routing table
    (`C74_find_enr_violated`).
64. C74: `Discv5UdpSocket` cuts packets longer than the buffer without an error (`C74_utp_recv_violated`) and reports
    packets as sent that it cannot send (`C74_utp_send_violated`).
65. C75: `--portal-subnetworks beacon,beacon` is accepted and then aborts in `RpcModuleBuilder` (`expect("No
    conflicts")`); without RPC it wastes storage (`C75_starts_violated`, `C75_storage_violated`).
66. C75: an IPC path that is not UTF-8 and an HTTP address that does not resolve abort the start instead of being
    refused (`C75_starts_violated`).
67. C76: the defaults of the bridge (`latest` with `legacy_history`) do not go together: it starts its node and aborts
    (`C76_defaults_violated`).
68. C76: `single:r10-`, `single:r10-x` and `single:é` abort in the parser (`expect`, slicing inside a character)
    instead of being refused (`C76_mode_aborts_violated`).
69. C77: one failed download of a beacon state leaves `in_progress` set for ever, so the bridge never announces
    historical summaries again (`C77_summaries_stuck_violated`); the bootstrap task resets its flag.
70. C77: the checks against what was announced before and the updates of it are under separate locks; overlapping tasks
    announce twice and set the finalized slot back (`C77_overlap_violated`).
71. C77: the finalized root and the finalized state are separate requests, so the same summaries can be announced twice
    (`C77_mixed_violated`).
72. C77: an update whose census selection fails or is empty counts as announced for its whole period
    (`C77_nobody_violated`).
73. C78: a file of the range that is missing or broken panics the launcher: later epochs are never offered
    (`C78_missing_violated`, `C78_first_missing_violated`).
74. C78: `--offer-limit 0` is accepted and makes the bridge wait forever (`C78_zero_limit_violated`).
75. C78: the proofs of Capella and Deneb headers are not checked before they are offered (`C78_unproven_violated`).
76. C78: block numbers are only compared with the range for epochs that are partly in it (`C78_foreign_violated`).
77. C78: content for which the census returns an error is dropped and the block counts as done (`C78_nobody_violated`).
78. C79: the key file is created empty and filled in a second step: a crash or a full disk between them leaves a file
    that no later start can read or replaces (`C79_crash_violated`).
79. C79: two first starts in one directory can run with different keys, one of which is lost (`C79_race_violated`);
    if one of them is killed while it writes, the key is a mixture of both (`C79_mixed_violated`).
80. C79: the node directory is named after four of the 32 bytes of the node id (`C79_dir_violated`).
81. C80: era files with too few records, or about slots before Bellatrix, abort the reader (`C80_short_violated`,
    `C80_early_violated`).
82. C80: other entries between state and index, and files without an index of blocks, which the comment in era.rs
    allows, are not read (`C80_optional_violated`).
83. C80: offsets and count of the slot index are not checked (`C80_index_violated`).
84. C80: an era that starts before the merge says that it contains every block up to its last one
    (`C80_contains_violated`).
85. C81: an E2SS file that ends inside the record of an account is read as a complete, shorter snapshot
    (`C81_truncated_violated`); anything else that is malformed aborts the process (`C81_read_only`).
86. C81: the import writes the position before it downloads the block hashes; when that fails the hashes stay missing
    and another import is refused (`C81_hashes_violated`).
87. C81: a failed import leaves the accounts it has read in the database, where they are read after a later import as
    if they were part of its state (`C81_ghost_violated`).
88. C81: the header of a snapshot is not checked against the chain, only its state root against the accounts
    (`C81_import_accepts`).
89. C82: in the trace of a lookup a peer is shown with only those of the nodes it named that were not known before
    (`C82_named_violated`); with content as answer the list is emptied.
90. C82: a trace of a lookup without result says of peers that they were still awaited which had answered or failed
    (`C82_cancelled_violated`): the list is only updated when a peer names nodes.
91. C82: the event of a failed transfer or of invalid content takes another channel than the result, so that a lookup
    can end without it in the trace (`C82_failures_violated`).
92. C82: when a peer that announces content over uTP has no protocol version in common with the node, the task ends
    without a message, the lookup counts it as running, and asks nobody until its time is over (`C82_stalls_violated`).
93. C82: content that is missing in the local store is answered with -32099 instead of -39001 (`C82_local_violated`):
    the error text does not contain what is searched for.
94. C82: a request that fails is not reported to the content lookup (`process_request_failure`), which waits for the
    timeout of the peer.
95. C82: the kind of a response is not compared with the kind of the request, and node lookups and content lookups are
    numbered separately: a CONTENT message in answer to FIND_NODES of node lookup k is applied to content lookup k.
96. C82: an unknown ENR of a peer that has content is reported to the pool of node lookups
    (`handle_find_content_query_event`); that branch is not reachable (`C82_runs`).
97. C82: when the node's own value is returned after a peer answered, the answer names that peer and its uTP flag.
98. C83: values given to the store, put content and offer methods of the legacy history network are decoded and encoded
    again, so that other bytes are stored or offered than those given, without an error (`C83_legacy_exact_violated`;
    see C57).
99. C83: `portal_beaconStore`, `portal_beaconPutContent` and the offers panic in the task of the request if a value has
    fewer than four bytes (`C83_total_violated`; see C54).
100. C83: `discv5_lookupEnr` ends with an error at the first peer that does not answer, although peers after it may know
    the node (`C83_discv5_peer_violated`).
101. C83: `discv5_lookupEnr` asks peers for nodes at distance 256 only, so peers in the same half of the id space as the
    target, which the search returns, never name it (`C83_discv5_distance_violated`).
102. C83: without an IPv4 address `discv5_nodeInfo` answers with the text "None" as address (`C83_node_info`).
103. C83: `portal_beaconFinalityUpdate` and `portal_beaconOptimisticUpdate` fetch an update and return it; it is not
    verified by the light client first (consensus_client.rs:96-108).
104. C84: the age of a bootstrap is tested before its root is compared with the checkpoint, so that an RPC which answers
    with any old header moves a client that trusts a recent checkpoint to that of a service (`C84_downgrade_violated`).
105. C84: a start that fails with the checkpoint of a service leaves the client with that checkpoint
    (`C84_left_violated`).
106. C84: a checkpoint service that answers with no slots ends the program by an index out of range
    (`C84_empty_answer_violated`).
107. C84: among checkpoint services one that claims a later epoch decides alone (`C84_lone_service_violated`).
108. C84: the pause between turns reads the clock twice; if the next slot begins in between, the subtraction fails and
    the thread dies (`C84_pause_violated`).
109. C84: the URL that comes with a network is never used: building a client for a network alone aborts
    (`C84_default_url_violated`); the default checkpoint of a configuration is used even if another network is given.
110. C84: the present slot is always that of mainnet, also on Sepolia (`C84_sepolia_violated`).
111. C85: a lookup never returns its target: "Requested a node find itself" counts as a failure of the target, also when
    peers name it (`C85_target_violated`), so `lookup_enr` for a node outside the routing table returns the record of
    some other node, the one with the highest sequence number (`C85_lookup_enr_violated`).
112. C85: the initial lookups use the buckets 238 to 254, while refreshes use 239 to 255; the bucket 255, in which half
    of all nodes are, is not looked up at the start (`C85_initial_farthest_violated`).
113. C85: a node that is named its own record by a peer sends FIND_NODES to itself (`C85_asks_itself_violated`), and the
    answer of a lookup has the first record of a node that came up, not the newest (`C85_stale_violated`).
114. C86: `Network::init` stops when `new < 0.1 * all`; with no peers both sides are 0, so when nobody answers it never
    ends and "No peers found" is never reported; started again by the background service, it also blocks the other
    subnetworks (`C86_no_peers_violated`).
115. C86: a liveness check answered with an unexpected or undecodable ping extension is not recorded; as the schedule
    has already given up the check, the peer stays in the table unchecked and selectable until a lookup finds it
    (`C86_forgotten_violated`).
116. C86: `fetch_enr` takes any record with the id of the peer, also one older than claimed
    (`C86_claimed_record_violated`); `Census::init` marks the census initialised before anything can fail, so a failed
    start cannot be repeated (`C86_retry_violated`).
117. C87: the bridge gives half of `--offer-limit` to the headers of final periods; with 1 (accepted by the command
    line) that is 0 permits, and the tasks wait for ever (`C87_limit_one_violated`).
118. C87: `gossiped_non_ephemeral_headers` panics at the first block whose header cannot be built, so the later blocks
    of the period are never offered (`C87_gap_violated`); when the census fails nothing is offered and nothing is tried
    again (`C87_census_violated`).
119. C87: the results of header series are not recorded in the census (a todo in the code), so the reputation of peers
    knows nothing of them (`C87_series_unrecorded_violated`).
120. C88: `get_receipts_range` pairs the answers of a batch with the blocks by position; JSON-RPC allows any order, so
    blocks may get each other's receipts (`C88_order_violated`), and blocks beyond a short answer are missing from a
    result that counts as complete (`C88_short_violated`). An answer that is no object aborts the program
    (`C88_abort_violated`).
121. C88: a JSON-RPC error or a null result of the primary execution provider is final: the fallback is only used when
    the answer is no JSON (`C88_error_violated`). `get_block` does not check the height of what it gets
    (`C88_height_violated`).
122. C88: endpoints start with `/`, so `Url::join` drops the path of the address of a consensus provider, for example a
    key in it (`C88_path_violated`); content types with parameters are refused (`C88_charset_violated`).
123. C88: the PandaOps credentials are sent to every host whose name contains `pandaops.io`, such as
    `pandaops.io.example.org` (`C88_secret_violated`).
124. C89: when a UPnP gateway with the given external address is found, the port of `--external-address` is replaced by
    the listen port (`C89_port_violated`). `--no-stun` leaves the address blank only together with `--no-upnp`
    (`C89_nostun_violated`).
125. C89: an IPv6 `--external-address` is accepted and published, but only with a UDP port for IPv4, so the node cannot
    be reached (`C89_ipv6_violated`).
126. C89: the sequence number of the record is the clock, so after the clock was set back other nodes keep the old
    record (`C89_clock_violated`). One bootnode without an IPv4 address, or 17 in one bucket, keep the node from
    starting (`C89_bootnode_violated`, `C89_full_violated`).
127. C91: the JSON-RPC methods `Store` and `PutContent` do not validate, and the validator takes headers from the store
    without looking at their hash: after the operator stored a header under a wrong hash the node accepts bodies and
    receipts from peers for that hash, stores them and gives them to others (`C91_operator_violated`).
128. C92: the state bridge returns when the last offer was sent; offers in flight end with the process, are not counted
    and not reported (`C92_cut_off_violated`; the E2HS bridge waits for its offers).
129. C92: with an offer limit of 0 the state bridge stands still at the first item with a peer
    (`C92_no_permits_violated`).
130. C92: `launch_snapshot` deletes the database, which may be that of trin-execution, before it knows whether there is
    a snapshot for the requested block (`C92_deletes_violated`).
131. C92: if a launch fails or is killed after the position and before the block hashes were written, every later launch
    takes the import as done and panics; only deleting the directory helps (`C92_stuck_violated`,
    `C92_killed_violated`).
132. C92: the number in the header of the snapshot is not compared with the requested block (`C92_number_violated`).
133. C93: as long as the light client does not run, a recent bootstrap of any header is accepted and stored, and the
    next process without a configured root trusts it (`C93_root_violated`).
134. C93: the epoch of historical summaries is not proved by their proof; summaries sent for a far epoch are stored and
    then never replaced, and are given to the history validator too (`C93_frozen_violated`).
135. C93: the start period of a range of updates is not compared with the updates, so they can be stored and given for
    any periods of which the node has none (`C93_periods_violated`).
136. C94: any bytes of at most 1024 are accepted and stored as the root node of a state, with any block hash, because
    the header is not looked up (`C94_any_root_violated`); what is stored need not belong to the state of any block.
    The endpoints are not affected, since they start from the state root of a validated header.
137. C95: the two sides each compute the common version from the record they have of the other; if they differ, the
    answer to an offer is misread, and content that was accepted does not arrive (`C95_version_violated`).
138. C98: a light client asks for the optimistic update of the present slot exactly, so a slot without a block (or the
    first seconds of each slot) lets a start fail, and after ten of them the node runs without a light client
    (C98_slot_violated)
139. C98: a bootstrap with the right header and a wrong committee passes validation, and is never replaced: light
    clients that are given it cannot start (C98_poisoned_violated)
140. C98: one signature of 512 lets nodes keep a finality update of a later slot and refuse the right ones until the
    chain has passed that slot (C98_lone_signer_violated)
141. C99: until the light client of a node has started, historical summaries from anyone are stored, and with them the
    node accepts and gives any header with a timestamp after Cancun that a peer makes up (C99_forged_violated)
142. C100: eth_call fails for every contract that reads a block hash (`block_hash_async` is always an error;
    C100_block_hash_violated)
143. C100: eth_call at blocks of Prague and later runs under the rules of Cancun (C100_prague_violated, from
    C68_prague_violated)
144. C100: eth_call ignores the type and the authorizations of the request: the transaction type is never set, so that
    fee caps, access lists and blob hashes are handed to an EVM that takes the transaction for a legacy one
    (C100_type_violated)
145. C102: the body of a block after Shanghai without its withdrawals is valid content of the History network too
    (C102_withdrawals_violated)
146. C103: `BlsSignature::from_ssz_bytes` panics on bytes of another length and `PubKey::from_ssz_bytes` pads or cuts
    them; neither is reached through the blocks, which hand over exactly the length
147. The JSON reader of BLS signatures (`signature.rs`, `copy_from_slice` into 96 bytes) panics if the hex string has
    another length. Light client updates are always asked for as JSON lists, so the answer of a provider can abort the
    task of the bridge that reads it; the SSZ reader refuses such a length (C105_signature_violated).
148. The JSON reader of BLS public keys (`pubkey.rs`) takes a hex string of any length and cuts it after 48 bytes or
    fills it up with zeros, where it should refuse it (C105_keys_violated).
149. `observe_pruning_duration` (pruning_strategy.rs:163) rounds 1.2 times the limit to the nearest integer, which is 1
    for 1 and 2 for 2. Once slow statements have brought the limit of 100 down to 2 (17 of them in a row suffice) it
    never rises again, however fast the disk is, until the node is started anew; every statement then removes two
    entries at most (C106_limit_stuck_violated).
150. A signature of a length other than 96 bytes anywhere in a block sent as JSON makes the reader panic, through
    `copy_from_slice` in `BlsSignature` (C107_signature_violated); a transaction of more than 2^30 bytes would be cut,
    not refused (serde.rs:40-54).
151. `BeaconState` is read as JSON by trying the forks in turn (beacon_state.rs:68). States of Capella and Deneb differ
    in the header of the payload only, and `ExecutionPayloadHeader*` has no `deny_unknown_fields`
    (execution_payload.rs:213-229), so every Deneb state is read as a Capella state, without the blob gas fields
    (C108_fork_violated).
152. `balances`, `slashings`, `inactivity_scores` and the participation flags have `deserialize_with` for quoted numbers
    but no `serialize_with` (beacon_state.rs:100, 107, 127; participation_flags.rs:9): with a library that insists on
    quotes no state that is written as JSON can be read (C108_written_violated).
153. `main` of the light client configures a fallback service and the external list (main.rs:37-43) but does not turn on
    strict checkpoint age; `start` turns to them only after `CheckpointTooOld`, which is raised only with it
    (client.rs:310-347): they are asked in no run (C109_fallback_violated).
154. An answer of the server with a `sync_committee_signature` of other than 96 bytes makes the reader panic, and the
    task that advances the client ends for good while the process goes on (C109_dies_violated).
155. `build_ws_http` compares the two optional addresses (rpc_server.rs:387): if neither is given they count as the
    same, and WebSocket is served at 8545 instead of its default 8546; if only WebSocket is given 0.0.0.0:8545 they
    count as different and the second server cannot listen (C110_default_violated).
156. With one address for both transports the lists of origins are compared after `trim` but used without it, and the
    one of WebSocket is used (rpc_server.rs:395-404): with " http://a" and "http://a" the origin http://a is not let in
    (C110_shared_origins_violated).
157. `create_cors_layer` does not trim the entries of a list (cors.rs:21-37): in "http://a, http://b" the second origin
    is never let in, and " *" as an entry is not refused (C110_spaces_violated).
158. A server for which no modules are selected is dropped, but `RpcServerHandle::http_url` goes on to give its address
    (rpc_server.rs:74-101; C110_reported_violated).
159. A selection that names a module twice makes `module_for` abort at "No conflicts" (builder.rs:365-372;
    C110_repeat_violated).
160. The help for `--block-to-trace` says that traces are dumped to the working directory (cli.rs:36); they are in the
    data directory (execution.rs:156, C111_only).
161. `--last-block` and `--block-to-trace` are accepted with `import-state` and `export-state` and have no effect
    (main.rs:29-53, C111_subcommand).
162. `e2ss-stats` accepts a file that ends inside the record of an account (C112_truncated_violated) and a last storage
    record with more than ten million items, which the writer refuses (C112_overfull_violated).
163. `slot_to_timestamp` casts the slot to 32 bits (network_spec.rs:132): from slot 2^32 on it gives a time long ago
    (C113_start_violated).
164. A response of a wrong kind is counted before its kind is looked at (manager.rs:285): a peer that answers a PING
    with an ACCEPT makes the node report `offers=1/0` (C114_offers_violated).
165. `ChainHeadStore::new` reports nothing (store.rs:21-32): until a header newer than that of the start is learnt the
    gauges show slot 0 and lag 0 (C114_head_violated).
166. Content that is valid but not proved canonical counts as a success when a lookup found it and as a failure when it
    was offered (find_content.rs:528, offer.rs:552); `fine` in the specification of C114 says so.

## Noticed while reading, without a theorem of its own

- `increment_balances` after a block discards its error (block_executor.rs:204, `let _ =`).
- `find_first_beacon_block` returns the first block that the provider answers for the slots it tries and does not
  compare the slot of the answer (ethereum-rpc-client/src/consensus/mod.rs:211).
- The error message of `subnetwork_parser` is not formatted: it says "{subnetwork}" (utils/src/cli.rs:71).
- The stand-alone light client does not look at the HTTP status of an answer; an error page fails only as JSON.
- `LightClientUpdatesByRange::ssz_bytes_len` does not count offsets; nothing relies on it.
167. A content that no peer is interested in gets no line: the report is printed only by `update`
    (offer_report.rs:84-86). The comment of `get_client_type` (type_0.rs:53-58) says that the name "trin-execution"
    gives an unknown client; it gives `TrinExecution` (client_type.rs:28, C115_client).
