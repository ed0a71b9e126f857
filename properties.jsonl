{"id": "C01", "title": "XOR distance is a metric with unique bucket index", "statement": "The distance between two 32-byte ids is 0 exactly when the ids are equal, is symmetric, obeys the triangle inequality, and for a fixed centre every distance value is realised by exactly one id; its logarithmic distance is absent exactly for equal ids and otherwise is the unique l in 1..256 with 2^(l-1) <= distance < 2^l.", "quantifier": "every pair/triple of 256-bit ids and every 256-bit distance value", "why_tests_cant": "2^256 ids cannot be enumerated; the triangle inequality and uniqueness are statements about all triples.", "anchors": ["crates/ethportal-api/src/types/distance.rs: XorMetric::distance, Distance::log2, Distance::big_endian_u32"]}
{"id": "C02", "title": "Multi-item content payload framing round-trips and rejects damaged frames", "statement": "Encoding any list of content items (each shorter than 2^32 bytes) into one uTP payload and decoding it returns exactly the same items in the same order; decoding any byte string either fails or returns items whose bytes all come, in order, from the input; cutting an encoded payload short at any point inside an item makes decoding fail or drop whole trailing items only, never return altered bytes.", "quantifier": "every list of byte strings and every byte string received from the network", "why_tests_cant": "Unbounded number and size of items, adversarial bytes; varint boundary cases occur at every power of 128.", "anchors": ["crates/portalnet/src/utils/portal_wire.rs: encode_content_payload, decode_content_payload, encode_single_content_payload, decode_single_content_payload"]}
{"id": "C03", "title": "Accept-code lists round-trip in both protocol versions", "statement": "For protocol version 0 (bitlist) and version 1 (one byte per key) encoding an accept list and decoding it returns the same accepted positions (version 1: the same codes); any list of up to 64 codes is decodable and any byte outside the known codes decodes to a code that is not 'accepted'.", "quantifier": "every accept-code list up to the protocol limit and every received byte string", "why_tests_cant": "2^64 possible bitlists and 7^64 possible code lists; the delimiter-bit boundary at every multiple of 8.", "anchors": ["crates/ethportal-api/src/types/accept_code.rs: AcceptCode, AcceptCodeList", "crates/ethportal-api/src/types/portal_wire.rs: Accept, AcceptV0, AcceptV1"]}
{"id": "C04", "title": "Portal wire messages round-trip", "statement": "Every wire message the node can build (ping, pong, find-nodes, nodes, find-content, content, offer, accept) decodes, after encoding, to the same message; decoding is a function of the whole byte string (no two different messages share an encoding) and a message with an unknown selector is rejected.", "quantifier": "every message value with unbounded payload, list and key sizes", "why_tests_cant": "Messages contain variable-size lists of variable-size items: all offset tables must be right, for every size.", "anchors": ["crates/ethportal-api/src/types/portal_wire.rs: Message, Request, Response, Ping, Pong, FindNodes, Nodes, FindContent, Content, Offer, Accept"]}
{"id": "C05", "title": "Replies fit one discovery packet", "statement": "A NODES reply or an ENR-bearing CONTENT reply never exceeds the maximum talk-response size whatever the local routing table holds, always contains a prefix of the candidate records, and leaves a record out only because it did not fit.", "quantifier": "every list of candidate records of any sizes and every size limit", "why_tests_cant": "Record sizes are chosen by remote peers; the bound must hold for each combination.", "anchors": ["crates/portalnet/src/overlay/service/utils.rs: pop_while_ssz_bytes_len_gt", "crates/portalnet/src/overlay/service/find_nodes.rs: handle_find_nodes", "crates/portalnet/src/overlay/service/find_content.rs: handle_find_content", "crates/ethportal-api/src/types/portal_wire.rs: MAX_PORTAL_NODES_ENRS_SIZE, MAX_PORTAL_CONTENT_PAYLOAD_SIZE"]}
{"id": "C06", "title": "Content keys round-trip and never collide across kinds", "statement": "For each subnetwork (history, legacy history, beacon, state) decoding the bytes of a content key gives back that key, two different keys never have the same bytes, and decoding fails for an unknown selector or a wrong length.", "quantifier": "every content key of every kind and every byte string", "why_tests_cant": "Key spaces are 2^256 and larger; the state keys carry a variable-length path.", "anchors": ["crates/ethportal-api/src/types/content_key/history.rs", "crates/ethportal-api/src/types/content_key/legacy_history.rs", "crates/ethportal-api/src/types/content_key/beacon.rs", "crates/ethportal-api/src/types/content_key/state.rs"]}
{"id": "C07", "title": "Range content ids are collision free", "statement": "Different (block number, content type) pairs have different content ids in the range-based history network, and a run of up to 65536 consecutive block numbers aligned to a cycle spreads over 65536 different leading 16-bit prefixes.", "quantifier": "every pair of 64-bit block numbers and content types", "why_tests_cant": "2^64 block numbers.", "anchors": ["crates/ethportal-api/src/types/content_key/content_id.rs: range_content_id"]}
{"id": "C08", "title": "Trie path encoding round-trips and is canonical", "statement": "Every path of up to 64 nibbles is restored by decoding its compact encoding; different paths have different encodings; decoding accepts only byte strings that are the encoding of the returned path.", "quantifier": "every nibble sequence and every byte string", "why_tests_cant": "16^64 paths.", "anchors": ["crates/ethportal-api/src/types/state_trie/nibbles.rs: Nibbles"]}
{"id": "C09", "title": "A node lookup never over-asks and reports only responders, closest first", "statement": "During an iterative node lookup no peer is ever asked twice, the number of unanswered requests never exceeds the configured limit (the parallelism, or the number of results wanted once the lookup has stalled), and the final result contains at most the configured number of peers, each of which answered successfully, in strictly increasing distance to the target.", "quantifier": "every interleaving of polls, successes, failures, timeouts and every set of peers returned by (possibly malicious) remotes", "why_tests_cant": "Histories are unbounded and adversarial; tests run a handful of random schedules.", "anchors": ["crates/portalnet/src/find/iterators/findnodes.rs: FindNodeQuery", "crates/portalnet/src/find/iterators/query.rs: QueryConfig"]}
{"id": "C10", "title": "A finished lookup stays finished and a running lookup can always finish", "statement": "Once a lookup reports that it is finished every later event leaves its state and result unchanged; a lookup with no outstanding request and no uncontacted peer reports finished on the next poll; the lookup hands out each known peer at most once, so after finitely many handed-out peers it is only waiting.", "quantifier": "every event history", "why_tests_cant": "Liveness and stability over unbounded histories.", "anchors": ["crates/portalnet/src/find/iterators/findnodes.rs: FindNodeQuery::poll, on_success, on_failure", "crates/portalnet/src/find/iterators/findcontent.rs"]}
{"id": "C11", "title": "A content lookup returns only validated content", "statement": "If a content lookup finishes with content then it was confirmed through the validation channel of that lookup: a peer reported content during the lookup and either the validator accepted exactly those bytes, or the node's own stored value for the key takes their place; no content is returned otherwise; the first confirmed content is the result; content reported after the lookup finished never changes its result.", "quantifier": "every interleaving of polls, peer replies, validation results and timeouts", "why_tests_cant": "Concurrency between validation tasks and the query loop.", "anchors": ["crates/portalnet/src/find/iterators/findcontent.rs: FindContentQuery::poll, on_success, into_result", "crates/portalnet/src/find/query_pool.rs"]}
{"id": "C12", "title": "Every lookup leaves the pool exactly once, finished or timed out", "statement": "Each lookup added to the pool is returned by polling exactly once, as finished or as timed out, under its own id; no id is used twice among the first 2^64 lookups; a lookup older than the query timeout is not left waiting by a poll that would otherwise report nothing to do.", "quantifier": "every sequence of add and poll calls and every clock reading", "why_tests_cant": "Unbounded histories of concurrent queries.", "anchors": ["crates/portalnet/src/find/query_pool.rs: QueryPool::add_query, QueryPool::poll"]}
{"id": "C13", "title": "At most one inbound transfer per content key, with fallbacks", "statement": "While a transfer of some content is in progress further offers of the same content key are not accepted for transfer; each other peer that offers it is remembered once; after a failure the peer to ask instead is one of those, never the one that failed, and there is one unless nobody else offered; after the transfer ended the next offer of the key is accepted; a transfer that was never ended stops blocking its key 120 seconds after the key was last offered.", "quantifier": "every sequence of offers, completions, failures and expiries from every set of peers, with every choice of the random fallback", "why_tests_cant": "Races among offers; unbounded peers; clock.", "anchors": ["crates/portalnet/src/accept_queue.rs: AcceptQueue::add_key_to_queue, remove_key, process_failed_key", "crates/portalnet/src/overlay/service/offer.rs: handle_offer"]}
{"id": "C14", "title": "An offer is accepted only for content the node wants", "statement": "The reply to an OFFER has one verdict per offered key, in order. A key gets 'accepted' only if it decoded, the store wants it (not stored yet and within radius when the radius applies), no transfer of it is under way and an inbound transfer slot was free; every other key gets the verdict that names the first failing check; a connection id is handed out exactly when at least one key was accepted.", "quantifier": "every list of offered keys (up to the protocol limit) against every store, queue and slot state", "why_tests_cant": "The verdict is a function of the joint state; combinations cannot be enumerated.", "anchors": ["crates/portalnet/src/overlay/service/offer.rs: handle_offer", "crates/storage/src/lib.rs: ContentStore::should_we_store_batch, ShouldWeStoreContent"]}
{"id": "C15", "title": "Accepted content is paired with its own key", "statement": "The sender transmits exactly the contents of the accepted keys in offer order, and the receiver pairs the i-th received value with the i-th accepted key; a payload with a different number of items is rejected as a whole.", "quantifier": "every offer, accept list and payload", "why_tests_cant": "Alignment of two independently computed lists for all accept patterns.", "anchors": ["crates/portalnet/src/overlay/service/offer.rs: handle_offer, process_accept, provide_requested_content, decode_payload", "crates/portalnet/src/utils/portal_wire.rs"]}
{"id": "C16", "title": "FIND_NODES and FIND_CONTENT answers are the right peers", "statement": "A FIND_NODES answer lists only peers at the requested log distances (plus the local record exactly when distance 0 is requested), never the asking peer, and at most the configured number; a FIND_CONTENT answer without content lists the known connected peers closest to the content, excluding the asker, sorted by distance, so that no omitted eligible peer is closer than a listed one.", "quantifier": "every routing table, requester, target and distance list", "why_tests_cant": "Unbounded table contents; optimality is a statement over all omitted peers.", "anchors": ["crates/portalnet/src/types/kbucket.rs: SharedKBucketsTable", "crates/portalnet/src/overlay/service/find_nodes.rs", "crates/portalnet/src/overlay/service/find_content.rs"]}
{"id": "C17", "title": "Lookup distance request covers the nearest buckets", "statement": "The list of log distances asked of a peer starts with the peer's own log distance to the target, contains no duplicates, every entry is a valid log distance (0..256), has the requested length, and it contains every valid distance closer (in steps) to the start than any listed one.", "quantifier": "every pair of ids and every requested size up to 127", "why_tests_cant": "257 start distances times 128 sizes times sides; the claim about omitted distances is universal.", "anchors": ["crates/portalnet/src/find/query_info.rs: findnode_log2distance"]}
{"id": "C18", "title": "Version negotiation picks the best common version", "statement": "The protocol version used with a peer is the highest of this node's supported versions that the peer also lists; it is symmetric when both lists are sorted; a peer without a version record counts as version 0; no common version is an error, never a guess.", "quantifier": "every pair of supported version lists", "why_tests_cant": "All pairs of lists, including unknown version numbers.", "anchors": ["crates/ethportal-api/src/types/network_spec.rs: NetworkSpec::latest_common_protocol_version", "crates/ethportal-api/src/types/protocol_versions.rs"]}
{"id": "C19", "title": "Gossip goes only to interested peers, bounded per content and per peer", "statement": "Each peer chosen to be offered a radius-bound content item is connected and had advertised a radius covering the item. No item is offered to more than eight peers and no peer is offered more than 64 items, an item that is not in the batch, or an item twice. When the batch fits one offer (64 items) a radius-bound item is offered to exactly eight interested peers, all of them when there are at most eight, and the four closest are always among them; other items go to the same eight connected peers. Items of one kind are offered in the order of the batch.", "quantifier": "every batch of distinct content items, every routing table and every random choice", "why_tests_cant": "Random selection: the bound must hold for all choices.", "anchors": ["crates/portalnet/src/gossip/mod.rs: gossip_recipients", "crates/portalnet/src/gossip/neighborhood.rs", "crates/portalnet/src/gossip/random.rs", "crates/portalnet/src/put_content.rs: propagate_put_content_cross_thread", "crates/portalnet/src/types/kbucket.rs: batch_interested_enrs, random_peers"]}
{"id": "C20", "title": "The content store behaves like a map", "statement": "After any sequence of store operations a lookup returns the value of the first successful insertion of that content id since it was last removed, and nothing when there was none; pagination lists each stored key exactly once, in key order. The same holds of the ephemeral store.", "quantifier": "every sequence of inserts, deletes, prunes, restarts with other configurations and kills, and every lookup and pagination after it", "why_tests_cant": "Unbounded histories.", "anchors": ["crates/storage/src/versioned/id_indexed_v1/store.rs: IdIndexedV1Store", "crates/storage/src/versioned/id_indexed_v1/sql.rs"]}
{"id": "C21", "title": "The content store stays within its capacity", "statement": "After each successful insert the tracked usage of the store is at most its capacity unless it is empty or the pruning step is zero, and a radius-bound insert whose distance exceeds the current radius is refused without changing anything.", "quantifier": "every sequence of inserts of items of any size for every capacity", "why_tests_cant": "The pruning loop depends on averages of all past insertions.", "anchors": ["crates/storage/src/versioned/id_indexed_v1/store.rs: insert, prune", "crates/storage/src/versioned/id_indexed_v1/pruning_strategy.rs"]}
{"id": "C22", "title": "Pruning removes the farthest content and the radius follows", "statement": "Pruning removes only entries that are at least as far (by the indexed 32-bit distance prefix) as each entry kept; it reports to the caller the removed entries; afterwards the radius is the distance of a farthest kept entry, capped by the configured maximum, so content outside it is refused.", "quantifier": "every store content and every prune", "why_tests_cant": "All distributions of distances, including ties in the prefix.", "anchors": ["crates/storage/src/versioned/id_indexed_v1/store.rs: prune, delete_farthest, set_radius_to_farthest"]}
{"id": "C23", "title": "Restarting the store recovers usage and radius from the rows", "statement": "Opening a store over the rows left behind at any point computes the usage from the rows alone, keeps every row when usage is within capacity, and gives a radius that covers each kept row up to the indexed precision; it can always be reopened for the same node id, and a database written for a node id that differs in the indexed 32 bits is refused.", "quantifier": "every set of rows a crash can leave behind and every capacity change between runs", "why_tests_cant": "Every crash point and every previous configuration.", "anchors": ["crates/storage/src/versioned/id_indexed_v1/store.rs: IdIndexedV1Store::create, init"]}
{"id": "C24", "title": "Tracked usage equals real usage", "statement": "At all times the store's tracked entry count and content size equal the number and total size of the rows it holds, and pagination reports that number.", "quantifier": "every sequence of operations, including repeated insertion of the same content", "why_tests_cant": "Drift accumulates over histories.", "anchors": ["crates/storage/src/versioned/id_indexed_v1/store.rs: insert, delete", "crates/storage/src/versioned/usage_stats.rs", "crates/storage/src/versioned/ephemeral_v1/store.rs"]}
{"id": "C25", "title": "Storage capacity is split without exceeding the total", "statement": "With a combined limit the capacities given to the enabled subnetworks add up to at most the configured total, equally weighted subnetworks get equal shares, the loss by rounding is less than one byte per subnetwork, and a subnetwork that is not enabled or has no configured value is refused.", "quantifier": "every total and every set of enabled subnetworks", "why_tests_cant": "All 64-bit totals and subsets.", "anchors": ["crates/storage/src/config.rs: StorageCapacityConfig, PortalStorageConfigFactory"]}
{"id": "C26", "title": "A store is opened only at its own version", "statement": "Opening a store writes the version for a new database, leaves a matching version alone, and otherwise fails without touching the recorded version unless a migration exists; after a successful open the recorded version is the store's version.", "quantifier": "every sequence of opens with stores of any versions", "why_tests_cant": "Histories of upgrades and downgrades.", "anchors": ["crates/storage/src/versioned/utils.rs: create_store"]}
{"id": "C27", "title": "The beacon store returns what its keys promise", "statement": "A bootstrap is returned for the root of its header from its first insertion until a pruning passes its slot, and across restarts. A range of updates (at most 128, below 2^63) is returned exactly when every period is stored, and then with the update first inserted for each period, in order. A finality update is returned exactly when the last one inserted since the start finalizes the requested slot or a later one, an optimistic update exactly when its signature slot is the requested one or later, historical summaries exactly when the last ones inserted are for the requested epoch or a later one. A key other than a range is declined as already stored exactly when it can be returned. The store can always be opened again.", "quantifier": "every sequence of insertions of any bytes under any key, failing writes, prunings and restarts, and every key looked up after it", "why_tests_cant": "Unbounded histories over four kinds of content with different replacement rules.", "anchors": ["crates/subnetworks/beacon/src/storage.rs: BeaconStorage, BeaconStorageCache, prune_old_bootstrap_data", "crates/storage/src/sql.rs"]}
{"id": "C28", "title": "The known chain head never goes backwards", "statement": "The tracked optimistic and finalized headers only change to headers with a strictly higher slot, and historical summaries only to strictly longer lists, so readers never observe a regression.", "quantifier": "every sequence of processed updates in any order, with duplicates", "why_tests_cant": "Updates arrive in arbitrary order from several sources.", "anchors": ["crates/validation/src/chain_head/store.rs: ChainHeadStore", "crates/validation/src/chain_head/mod.rs: ChainHead"]}
{"id": "C29", "title": "Merkle branch verification is binding", "statement": "If two different leaves are both accepted for the same root, depth and index then the two proofs exhibit a collision of the hash function; a branch of the wrong length is rejected; a leaf and branch taken from a tree with that root are accepted.", "quantifier": "every leaf, branch, depth, index and root, for every hash function", "why_tests_cant": "Cryptographic soundness is a statement over all forged proofs.", "anchors": ["crates/validation/src/merkle/proof.rs: verify_merkle_proof, merkle_root_from_branch"]}
{"id": "C30", "title": "Generated Merkle proofs verify", "statement": "For every leaf list that fits the tree, the proof generated for index i verifies against the tree's root with the i-th leaf (or the zero leaf beyond the list), and pushing a leaf yields the same root as building the tree from the extended list.", "quantifier": "every depth, leaf list and index", "why_tests_cant": "Unbounded depth and number of leaves.", "anchors": ["crates/validation/src/merkle/proof.rs: MerkleTree::create, push_leaf, generate_proof, hash"]}
{"id": "C31", "title": "A pre-merge header is accepted only if it is in the accumulator", "statement": "A pre-merge header with proof is accepted only if its block number is before the merge and its hash is the leaf at the position given by its number under the frozen epoch root of its epoch; under collision resistance no other header hash is accepted for that block number.", "quantifier": "every header and proof", "why_tests_cant": "Adversarial proofs.", "anchors": ["crates/validation/src/header_validator.rs: HeaderValidator::verify_pre_merge_header", "crates/validation/src/accumulator.rs: PreMergeAccumulator::construct_proof"]}
{"id": "C32", "title": "A post-merge header is accepted only if committed by a trusted beacon root", "statement": "A header of the Bellatrix, Capella or Deneb era with proof is accepted only if its hash is committed at the execution-block-hash position of a beacon block root, and that root at the slot's position of the trusted historical root or summary for that slot; the proof type must match the fork rules for the header's number and timestamp.", "quantifier": "every header, proof and slot", "why_tests_cant": "Adversarial proofs and slots.", "anchors": ["crates/validation/src/header_validator.rs: verify_merge_to_capella_header, verify_capella_to_deneb_header, verify_post_deneb_header", "crates/ethportal-api/src/types/execution/header_with_proof.rs"]}
{"id": "C33", "title": "Header validation always returns a verdict", "statement": "Validating any header with proof returns accept or an error and never aborts the node.", "quantifier": "every header, proof and attacker-chosen slot", "why_tests_cant": "Slots are attacker-chosen 64-bit values.", "anchors": ["crates/validation/src/header_validator.rs: verify_historical_roots / historical_roots indexing"]}
{"id": "C34", "title": "Locally built pre-merge proofs verify", "statement": "For each complete epoch and each header in it the proof built from the epoch accumulator is accepted by the validator whose frozen list contains that epoch's root.", "quantifier": "every epoch accumulator content and index", "why_tests_cant": "8192! arrangements of headers.", "anchors": ["crates/validation/src/accumulator.rs: PreMergeAccumulator::construct_proof", "crates/validation/src/header_validator.rs"]}
{"id": "C35", "title": "Historical summaries are looked up for the right period", "statement": "The summary used for a slot is the one at index (slot - first Capella slot)/8192 of the trusted list; slots before Capella are refused; a cached list is used only if it reaches that index and a refreshed list replaces the cache only when it does.", "quantifier": "every slot and every cache/source state", "why_tests_cant": "All 64-bit slots and list lengths.", "anchors": ["crates/validation/src/historical_summaries_provider.rs", "crates/ethportal-api/src/types/consensus/historical_summaries.rs historical_summary_index"]}
{"id": "C36", "title": "State trie proofs are sound", "statement": "If a trie proof is accepted for a root and a path then (up to an explicit hash collision) the trie committed to by that root leads along that path to the proven node; an accepted account proof yields exactly the account stored under the address hash.", "quantifier": "every proof (list of nodes), path and root", "why_tests_cant": "Adversarial proofs of any length.", "anchors": ["crates/subnetworks/state/src/validation/trie.rs: validate_node_trie_proof, validate_account_state, validate_trie_proof", "crates/ethportal-api/src/types/state_trie/trie_traversal.rs"]}
{"id": "C37", "title": "State content is accepted only with a matching node or code hash", "statement": "Content offered for a state key is accepted only if the last proof node (or the code) hashes to the hash in the key and the proof path is the key's path; content retrieved for a key is accepted only if it hashes to the key's hash; content of the wrong variant for the key is rejected.", "quantifier": "every key and content value", "why_tests_cant": "Adversarial contents.", "anchors": ["crates/subnetworks/state/src/validation/validator.rs: StateValidator"]}
{"id": "C38", "title": "E2store files round-trip and bad files are refused", "statement": "Serializing any list of entries and reading it back returns the same entries; an entry whose declared length runs past the end of the file, or whose reserved field is not zero, is refused with an error.", "quantifier": "every list of entries and every byte string", "why_tests_cant": "Unbounded file sizes; adversarial files.", "anchors": ["crates/e2store/src/e2store/types.rs: Entry, Header", "crates/e2store/src/e2store/memory.rs: E2StoreMemory", "crates/e2store/src/e2store/stream.rs"]}
{"id": "C39", "title": "History archive files round-trip and indices point at their blocks", "statement": "An era1 or e2hs file that was written reads back as the same block tuples in the same order; an accepted file contains, for each block its index counts, exactly the records the block was decoded from; in a file written block by block the index entry of block k is the offset from the start of the file at which block k's records start, and a file is finished only with exactly 8192 blocks.", "quantifier": "every sequence of blocks of any sizes", "why_tests_cant": "Offsets depend on all previous record sizes.", "anchors": ["crates/e2store/src/era1.rs: Era1", "crates/e2store/src/e2hs.rs: E2HSWriter, E2HSMemory"]}
{"id": "C40", "title": "The light client head never regresses", "statement": "Across any sequence of bootstraps-then-updates the finalized header slot and optimistic header slot of the light client never decrease and the finalized slot never exceeds the optimistic slot; a header becomes finalized only with at least two thirds of the sync committee signing.", "quantifier": "every sequence of updates, valid or not", "why_tests_cant": "Unbounded update histories, including out-of-order and replayed updates.", "anchors": ["crates/light-client/src/consensus/consensus_client.rs: verify_generic_update, apply_generic_update"]}
{"id": "C41", "title": "The light client tracks only the canonical chain", "statement": "Assuming a supermajority-signed or accepted header is canonical and state proofs are binding, every finalized header and every sync committee the light client holds is the canonical one for its period: the current committee belongs to the period of the finalized header and the next committee to the period after it.", "quantifier": "every history of accepted updates", "why_tests_cant": "Committee hand-over happens at period boundaries, after unbounded histories.", "anchors": ["crates/light-client/src/consensus/consensus_client.rs: bootstrap, verify_generic_update, apply_generic_update"]}
{"id": "C42", "title": "Light client bootstrap starts only from the trusted checkpoint", "statement": "The light client accepts a bootstrap only if the header hashes to the configured checkpoint and the sync committee is proven against that header's state root; otherwise its state is unchanged.", "quantifier": "every bootstrap message", "why_tests_cant": "Adversarial messages.", "anchors": ["crates/light-client/src/consensus/consensus_client.rs: bootstrap, is_current_committee_proof_valid"]}
{"id": "C43", "title": "Bucket-refresh targets fall in the intended bucket", "statement": "The random id generated to refresh bucket b of a node lies at log distance exactly b+1 from that node, for every random choice.", "quantifier": "every node id, every bucket index 0..255 and all random bytes", "why_tests_cant": "2^256 random outcomes.", "anchors": ["crates/ethportal-api/src/types/node_id.rs: generate_random_node_id", "crates/ethportal-api/src/utils/bytes.rs: random_32byte_array"]}
{"id": "C44", "title": "Hex encoding round-trips", "statement": "Hex-encoding any byte string and decoding it returns the byte string; decoding rejects strings without the 0x prefix, of odd length or with non-hex characters.", "quantifier": "every byte string and every text", "why_tests_cant": "Unbounded lengths.", "anchors": ["crates/ethportal-api/src/utils/bytes.rs: hex_encode, hex_decode"]}
{"id": "C45", "title": "Peer selection of the bridge respects interest, bounds and liveness", "statement": "The weight of a peer is within [0, max], is 0 for a peer not interested in the content, so such a peer is never selected; at most the configured number of distinct peers is selected; a peer is dropped exactly when its latest ten liveness checks all failed, and its remembered history stays bounded.", "quantifier": "every history of liveness checks and offer results and every random choice", "why_tests_cant": "Unbounded histories.", "anchors": ["bin/portal-bridge/src/census/scoring.rs: AdditiveWeight, PeerSelector", "bin/portal-bridge/src/census/peer.rs: Peer", "bin/portal-bridge/src/census/peers.rs: Peers"]}
{"id": "C46", "title": "A block range is split into epochs exactly", "statement": "Splitting a block range into epochs covers exactly the blocks of the range: each block of the range lies in exactly one listed epoch part, no listed part contains a block outside the range, and an epoch is marked complete exactly when all of its 8192 blocks are in the range.", "quantifier": "every pair of 64-bit block numbers", "why_tests_cant": "2^128 ranges.", "anchors": ["bin/portal-bridge/src/types/range.rs: block_range_to_epochs"]}
{"id": "C47", "title": "Transfer slots are never over-committed", "statement": "The number of inbound (outbound) transfers in progress never exceeds the configured limit, a slot is granted whenever one is free, and each granted slot is returned exactly once.", "quantifier": "every interleaving of acquisitions and releases in both directions", "why_tests_cant": "Concurrency.", "anchors": ["crates/portalnet/src/utp/controller.rs: UtpController"]}
{"id": "C48", "title": "Peer radius and record bookkeeping follows the latest report", "statement": "After processing a ping or pong with a supported payload from a known peer the routing table records exactly the radius the peer reported; unsupported or undecodable payloads change nothing; peers that are not in the table are not added by it.", "quantifier": "every sequence of pings and pongs from every set of peers", "why_tests_cant": "Unbounded histories of mixed payload types.", "anchors": ["crates/portalnet/src/overlay/service/ping/mod.rs: process_ping, process_pong", "crates/portalnet/src/overlay/service/ping/handlers.rs", "crates/ethportal-api/src/types/ping_extensions/decode.rs"]}
{"id": "C49", "title": "Ping payloads and client information round-trip", "statement": "Every ping or pong payload the node builds (capabilities with client information, basic radius, history radius, error) is decoded by the receiver to the same values and is never shortened by the payload limit; an accepted payload is the only byte string for its values; client information survives printing and parsing, and parsing accepts only printed forms.", "quantifier": "every payload value, every byte string received and every client information string", "why_tests_cant": "Free-form strings with separators, lists of any length, adversarial payload bytes.", "anchors": ["crates/ethportal-api/src/types/ping_extensions/decode.rs: PingExtension::decode_ssz", "crates/ethportal-api/src/types/ping_extensions/extensions/type_0.rs: ClientInfoRadiusCapabilities, ClientInfo", "crates/ethportal-api/src/types/ping_extensions/extensions/type_1.rs", "crates/ethportal-api/src/types/ping_extensions/extensions/type_2.rs", "crates/ethportal-api/src/types/ping_extensions/extensions/type_65535.rs"]}
{"id": "C50", "title": "Locally built post-merge header proofs are accepted", "statement": "For every beacon block of the Bellatrix, Capella, Deneb and Electra forks and every batch of 8192 block roots that contains it at its slot, the proof built for its execution header has the required length and is accepted by the validator that trusts the corresponding historical root or summary.", "quantifier": "every beacon block, slot and batch of block roots", "why_tests_cant": "The space of blocks and root batches is unbounded; fixtures cover a few blocks per fork.", "anchors": ["crates/ethportal-api/src/types/execution/header_with_proof.rs: build_historical_roots_proof, build_capella_historical_summaries_proof, build_deneb_historical_summaries_proof, build_electra_historical_summaries_proof", "crates/ethportal-api/src/types/consensus/beacon_block.rs: build_execution_block_hash_proof", "crates/ethportal-api/src/types/consensus/proof.rs: build_merkle_proof_for_index", "crates/validation/src/header_validator.rs: HeaderValidator"]}
{"id": "C51", "title": "State content values survive encoding", "statement": "Every state content value within the size limits is decoded back from its bytes under each key it belongs to, the form with a proof and the form without are never confused, and the only bytes decoded to a value are its encoding.", "quantifier": "every state key and content value", "why_tests_cant": "Node lists and byte strings of any content and length.", "anchors": ["crates/ethportal-api/src/types/content_value/state.rs: StateContentValue, TrieNode, AccountTrieNodeWithProof, ContractStorageTrieNodeWithProof, ContractBytecodeWithProof"]}
{"id": "C52", "title": "A lookup that comes closer is not treated as stalled", "statement": "If the answer of an awaited peer names a peer closer to the target than every known peer, the lookup does not count as stalled afterwards and keeps to its parallelism; if it names only peers farther than a known one and enough peers are known, it counts as an answer without progress, and after as many of those in a row as the parallelism the lookup counts as stalled and asks up to the number of results at a time.", "quantifier": "every history of a lookup and every answer", "why_tests_cant": "Depends on the order of peers inside answers and on the whole history.", "anchors": ["crates/portalnet/src/find/iterators/findnodes.rs: FindNodeQuery::on_success, at_capacity", "crates/portalnet/src/find/iterators/findcontent.rs: FindContentQuery::on_success"]}
{"id": "C53", "title": "An inbound transfer stores only validated content and frees its keys", "statement": "Whatever bytes arrive for an accepted offer, the store changes only by putting content that the validator accepted for its key and that was delivered at the place of that key or fetched from another peer that had offered it; all valid delivered content is passed on and nothing else is but valid fetched content and content the store dropped; for every key at most one other peer is asked, and only if the key's content did not arrive or was invalid; afterwards every accepted key can be accepted again and no other key is affected.", "quantifier": "every list of accepted keys, every received payload or transfer error, every validator, store and queue state and every answer of the fallback peers", "why_tests_cant": "Adversarial payloads and arbitrary failures for arbitrary key lists.", "anchors": ["crates/portalnet/src/overlay/service/offer.rs: handle_offer (spawned task), fallback_find_content, single_fallback_find_content, validate_content, store_content, decode_payload", "crates/portalnet/src/accept_queue.rs"]}
{"id": "C54", "title": "Beacon content values survive encoding", "statement": "Every beacon content value (bootstrap, update range, finality update, optimistic update of each fork, historical summaries) is decoded back from its bytes under each key it belongs to, the only bytes decoded to a value are its encoding, which has the documented layout, and bytes that carry an unknown fork are not decoded.", "quantifier": "every beacon key, every value of every fork and every byte string", "why_tests_cant": "Nested containers with lists of any length and adversarial bytes.", "anchors": ["crates/ethportal-api/src/types/content_value/beacon.rs: BeaconContentValue, ForkVersionedLightClientBootstrap, ForkVersionedLightClientUpdate, LightClientUpdatesByRange, ForkVersionedHistoricalSummariesWithProof", "crates/ethportal-api/src/types/consensus/light_client/bootstrap.rs", "crates/ethportal-api/src/types/consensus/light_client/update.rs", "crates/ethportal-api/src/types/consensus/light_client/finality_update.rs", "crates/ethportal-api/src/types/consensus/light_client/optimistic_update.rs", "crates/ethportal-api/src/types/consensus/fork.rs: ForkName"]}
{"id": "C55", "title": "Beacon content is validated by its rules", "statement": "A beacon content item is declared valid exactly if it is the encoding of a value of the kind of its key and meets the rules of that kind: a bootstrap is at most 120 days old and, while the light client is running, has the finalized header; a range has as many updates as its key says, all signed by the committee the light client knows, with their proofs; a finality or optimistic update is of the current fork, fits the slot of its key, is signed by that committee, newer than the finalized header, and its finalized header is proved; summaries have the epoch of the key and are proved in the finalized state. No value that the decoder handles aborts validation.", "quantifier": "every key, every byte string, every state of the light client and every time", "why_tests_cant": "Adversarial bytes against every trusted state; signatures and proofs cannot be enumerated.", "anchors": ["crates/subnetworks/beacon/src/validation.rs: BeaconValidator::validate_content, general_summaries_validation", "crates/light-client/src/consensus/consensus_client.rs: verify_generic_update", "crates/light-client/src/consensus/types.rs: GenericUpdate", "crates/validation/src/oracle.rs: HeaderOracle"]}
{"id": "C56", "title": "The state storage serves valid retrievable content", "statement": "Whatever is put into the state storage, in whatever order, with restarts and crashes in between, what it returns for a key is valid content for that key: the trie node or code, without proof, that content put under this key carried with a proof and whose hash is in the key (or another key that was put has the same content id). A put succeeds exactly for such content within the radius; content judged canonically valid is never refused except for the radius, and is then returned unless the key was there before or the capacity is exceeded; content without proof is refused. The answer whether a key should be stored agrees with what put and get do.", "quantifier": "every sequence of puts of any bytes under any keys, restarts with any configuration and kills during a put", "why_tests_cant": "Unbounded histories of adversarial content with crash points.", "anchors": ["crates/subnetworks/state/src/storage.rs: StateStorage, ContentStore::{get,put,should_we_store}", "crates/storage/src/versioned/id_indexed_v1/store.rs: IdIndexedV1Store", "crates/ethportal-api/src/types/content_value/state.rs: StateContentValue"]}
{"id": "C57", "title": "Legacy history content values", "statement": "Every header with proof, block body, receipt list and ephemeral header value that belongs to its content key is encoded without panic and read back unchanged under that key; everything that is read under a key belongs to it: a header of at most 2048 bytes with the kind of proof of its fork, a body without uncles if it has withdrawals, at most 16384 receipts, at most 256 ephemeral headers. No two values of a key have the same encoding. The encoding should also be the only bytes read as the value; it is only the shortest ones, because bytes after each RLP item are ignored. Oversized headers are encoded to bytes that are not read; uncles of a body with withdrawals are dropped.", "quantifier": "every content key, every value, every byte string, every fork schedule, every header, transaction, receipt and withdrawal type whose library encoding is faithful", "why_tests_cant": "Unbounded values and adversarial byte strings.", "anchors": ["crates/ethportal-api/src/types/content_value/legacy_history.rs: LegacyHistoryContentValue::{encode,decode}", "crates/ethportal-api/src/types/execution/header_with_proof.rs: HeaderWithProof", "crates/ethportal-api/src/types/execution/block_body.rs: BlockBody", "crates/ethportal-api/src/types/execution/receipts.rs: Receipts", "crates/ethportal-api/src/types/execution/ephermeral_header.rs", "crates/ethportal-api/src/types/execution/ssz_header.rs"]}
{"id": "C58", "title": "Legacy history content is accepted only if it is the block's", "statement": "Content is accepted under a header key exactly if it holds a header with this hash or number whose proof is accepted; two headers accepted under the same hash are the same; a header of before the merge accepted under a number is the one of the chain. If the headers the history network answers are validated, a body accepted under a hash has the transactions and uncles, and receipts accepted under a hash are the receipts, of the block with this hash; headers, bodies and receipts of the chain are accepted. Nothing is accepted under ephemeral header keys. A body should also have the withdrawals of the block, content should be unique for its key and validation should never abort; these are false.", "quantifier": "every content key, every byte string, every block, every answer of the history network and of the source of summaries, every history of validations", "why_tests_cant": "Adversarial content and proofs; collisions must be exhibited, not assumed away.", "anchors": ["crates/subnetworks/legacy-history/src/validation.rs: LegacyHistoryValidator::validate_content", "crates/validation/src/oracle.rs: HeaderOracle::recursive_find_header_by_hash_with_proof", "crates/ethportal-api/src/types/execution/block_body.rs: BlockBody::validate_against_header", "crates/ethportal-api/src/types/execution/receipts.rs: Receipts::root"]}
{"id": "C59", "title": "EVM state reads give what the block's state holds", "statement": "Reading an account, a storage slot or code through the state network at a block gives exactly what the state with the block's state root holds, after any earlier reads and whatever peers answer, as long as the network hands out only validated content. If the network has the nodes, every existing account, every slot and the code of every account read before is found, and absence is reported as absence. A repeated read gives the same answer. No answer of the network makes the reader abort. An account whose storage is empty should give zero for every slot, and content that the network accepts should never make a read fail; these two are false.", "quantifier": "every state and storage trie, every address, slot and code hash, every history of earlier reads, every answer of the network to each of them", "why_tests_cant": "Every trie shape, every order of cached reads and every adversarial answer; collisions must be exhibited, not assumed away.", "anchors": ["crates/rpc/src/evm_state.rs: EvmBlockState::{account_state, contract_storage_at_slot, contract_bytecode, traverse_trie, fetch_trie_node, fetch_content}", "crates/rpc/src/evm_state.rs: AsyncDatabase for EvmBlockState", "crates/ethportal-api/src/types/state_trie/trie_traversal.rs: NodeTraversal"]}
{"id": "C60", "title": "eth RPC answers are those of the block asked for", "statement": "eth_getBlockByHash, eth_getBlockByNumber, eth_getBalance, eth_getStorageAt and eth_getCode start from a header with the hash, or with the number and an accepted proof, that was asked for. A block that is returned has the transaction hashes and uncle hashes of the body its header commits to; a balance, storage value or code that is returned is the one in the state with the header's state root, and zero or empty if there is no account. If the networks hold the content the answer is found. Block tags and full transactions are refused, and state requests are refused without a state network. A returned block should also have its withdrawals; this is false.", "quantifier": "every block, address and slot, every answer of the history and state networks that their validators accept", "why_tests_cant": "Every adversarial mix of validated answers; end-to-end composition of header, body, trie and code checks.", "anchors": ["crates/rpc/src/eth_rpc.rs: EthApi::{get_block_by_number, get_block_by_hash, get_balance, get_storage_at, get_code}", "crates/rpc/src/eth_rpc.rs: EthApi::{fetch_header_by_number, fetch_header_by_hash, fetch_block, fetch_block_body, evm_block_state}"]}
{"id": "C61", "title": "The life of a peer in the routing table", "statement": "Every entry of an overlay's routing table is filed under the node id of its own record, and the local node is never in it. A peer is held as connected only if it was active (it sent a request, answered one, or the user added it) and no request to it has failed since; a peer that is active is held as connected if it is in the table. The radius of an entry is the one its peer announced last, or the maximum if it announced none since it entered. While a peer stays in the table its record is replaced only by one with a higher sequence number, unless the user gives the record. Every peer in the table is in the ping queue and so is pinged again when its time comes; this is false.", "quantifier": "every history of requests, responses, failures, discovered records, ping timeouts and calls of add_enr and delete_enr, every choice of the k-bucket library allowed by its contract", "why_tests_cant": "The table is changed from seven places and by a library that moves pending entries on its own; only particular orders of failure, activity and eviction expose a wrong status or a peer that is never pinged.", "anchors": ["crates/portalnet/src/overlay/service/manager.rs: add_bootnodes, register_node_activity, process_request_failure, process_response, process_discovered_enrs, connect_node, update_node_connection_state, start", "crates/portalnet/src/types/kbucket.rs: SharedKBucketsTable, insert_or_update_discovered_nodes", "crates/portalnet/src/overlay/service/ping/mod.rs: process_ping, process_pong", "crates/portalnet/src/overlay/protocol.rs: add_enr, delete_enr"]}
{"id": "C62", "title": "Walking a state trie", "statement": "Iterating over a trie yields every node that is stored by hash, each once, in the order of the paths, and each with a proof that a validator accepts for the root and the path; with a filter, exactly the nodes on a path that the filter admits. A walk over a partial trie yields exactly the nodes reachable through nodes that are present. The iteration ends, and fails only if the database lacks a node (full walk), errs or holds undecodable data; it never skips a missing node. Content made from a yielded node is accepted as canonical under the key made from it.", "quantifier": "every trie with 64-nibble keys of any size and shape, every database addressed by hash, every slice filter, any number of calls of next", "why_tests_cant": "Tests walk one small genesis state; order, exactly-once and proofs must hold for every shape of extension, branch and contained node, and for every set of missing nodes.", "anchors": ["bin/trin-execution/src/trie_walker/mod.rs: TrieWalker::new, new_partial_trie, process_node, next", "bin/trin-execution/src/trie_walker/db.rs", "bin/trin-execution/src/types/trie_proof.rs", "bin/trin-execution/src/content.rs: create_account_content_key, create_account_content_value"]}
{"id": "C63", "title": "Slices of the state trie", "statement": "For every count of slices, each full 64-nibble key is in exactly one slice, and a slice admits a path exactly if some full key below the path lies in the slice; so the walks over all slices together visit exactly the nodes of the trie. A slice exists exactly for an index below the count (or a count of at most one), and checking a path of at most 64 nibbles never panics.", "quantifier": "all slice counts and indices of 16 bits, all paths, all tries", "why_tests_cant": "The slice bounds come from 256-bit division and wrapping arithmetic and are compared after cutting off digits; tests check the halves and thirds.", "anchors": ["bin/trin-execution/src/trie_walker/filter.rs: Filter::new, contains", "bin/trin-execution/src/utils.rs: nibbles_to_right_padded_b256"]}
{"id": "C64", "title": "A state snapshot is gossiped completely", "statement": "Gossiping a state snapshot produces exactly one content item for every node of the account trie, for the code of every account with code, and for every node of the storage trie of every account with storage; each is accepted as canonical by a validator. Bridges numbered 1 to n of n offer each item exactly once between them; a bridge id is accepted exactly if it is between 1 and the total.", "quantifier": "every state (any number of accounts, codes and storage tries), every number of bridges, every index", "why_tests_cant": "A skipped account, a wrong address rebuilt from a path, or an item that no bridge is responsible for shows up only in particular tries and totals.", "anchors": ["bin/portal-bridge/src/bridge/state.rs: gossip_whole_state_snapshot, gossip_account, gossip_contract_bytecode, gossip_storage", "bin/portal-bridge/src/cli.rs: BridgeId", "bin/trin-execution/src/content.rs", "bin/trin-execution/src/utils.rs: full_nibble_path_to_address_hash"]}
{"id": "C65", "title": "The execution database is the chain state", "statement": "After any history of genesis, committed bundles, trie commits, executed blocks and cache clears, reads of the execution database give the state as plain maps: nonce, balance and code hash of every account, every storage slot, every deployed code and the hashes of the last 256 blocks; deleting an account or wiping storage leaves no slot behind. The root of the account trie is the root of exactly that state.", "quantifier": "every history of operations of any length, all accounts, slots, codes and blocks in it", "why_tests_cant": "Slots survive a wipe, roots are lost on a rewrite, or two kinds of records overwrite each other only in particular orders of deletion, re-creation and storage changes.", "anchors": ["bin/trin-execution/src/storage/evm_db.rs: commit_account, wipe_account_storage, commit_accounts, commit_storage_changes, commit_storage, commit_bundle, basic_ref, code_by_hash_ref, storage_ref, block_hash_ref", "bin/trin-execution/src/storage/account_db.rs", "bin/trin-execution/src/storage/trie_db.rs", "bin/trin-execution/src/evm/block_executor.rs: process_genesis, manage_block_hash_serve_window, commit_bundle"]}
{"id": "C66", "title": "The changes of a block are gossiped completely", "statement": "Gossiping the changes of a block does not fail and offers, each once and each accepted as canonical, every content item of the new state whose key the old state had not: changed nodes of the account trie, code of new contracts and changed storage nodes. Nothing else is offered, except for the empty node of an empty storage trie. So a bridge that gossiped one state as a snapshot, and then every block, has offered all the content of the latest state. The caches of the database give exactly the codes committed and all storage nodes written since they were last cleared.", "quantifier": "every pair of successive states, every history of blocks, every history of database operations", "why_tests_cant": "Changed nodes are found by walking only through changed nodes; a node that is changed below an unchanged one, or an account whose code or storage is new while its leaf is not visited, would be skipped silently.", "anchors": ["bin/portal-bridge/src/bridge/state.rs: gossip_trie_diff", "bin/trin-execution/src/trie_walker/mod.rs: new_partial_trie", "bin/trin-execution/src/storage/evm_db.rs: get_storage_trie_diff, get_newly_created_contract, clear_contract_cache, commit_storage_changes, commit_bundle"]}
{"id": "C67", "title": "Block execution resumes where it stopped", "statement": "Executing a chain takes its blocks in order, none twice and none left out, and a call that succeeds has executed exactly the range asked for (or up to the block at which it was stopped), leaving a state with the state root of the last block. Whenever the process ends or crashes, the database has the state before the block it records as next, and the next process continues as if nothing had happened.", "quantifier": "every valid chain, every behaviour of downloads, stop signals and commit limits, every history of processes and crashes", "why_tests_cant": "Commits depend on time and memory, files are downloaded in the background and crashes can happen at any write; the recorded position and the state are written separately.", "anchors": ["bin/trin-execution/src/execution.rs: process_range_of_blocks, process_next_block, commit", "bin/trin-execution/src/storage/execution_position.rs: update_position, initialize_from_db", "bin/trin-execution/src/evm/block_executor.rs: execute_block, process_genesis, manage_block_hash_serve_window", "bin/trin-execution/src/e2hs/manager.rs: get_next_block, get_next_processed_e2hs"]}
{"id": "C68", "title": "Blocks are executed under the rules of their fork", "statement": "A block is executed with the rules of the fork active at its number, with an environment made from its header and transactions only (nothing is left over from earlier blocks, transactions or system calls, and tracing changes nothing), and is refused exactly when it cannot be executed or uses other gas than its header says. Afterwards exactly the payments due are made, in whatever order: block and uncle rewards, withdrawals, and the move of the DAO fork.", "quantifier": "every block, every earlier state of the executor, every order of the map of payments, every behaviour of the EVM", "why_tests_cant": "The executor keeps environment, configuration and flags between blocks and saves and restores them around a system call; payments are collected in a hash map and applied in its order.", "anchors": ["crates/evm/src/spec_id.rs: get_spec_id, get_spec_block_number", "crates/evm/src/lib.rs: create_block_env, create_evm_with_tracer", "crates/evm/src/tx_env_modifier.rs: TxEnvModifier", "bin/trin-execution/src/evm/block_executor.rs: set_evm_environment, execute_block, execute_transaction", "bin/trin-execution/src/evm/pre_block_contracts.rs: apply_beacon_root_contract", "bin/trin-execution/src/evm/post_block_beneficiaries.rs: get_post_block_beneficiaries", "bin/trin-execution/src/evm/dao_fork.rs"]}
{"id": "C69", "title": "The ephemeral history bridge offers chains of blocks", "statement": "Every bundle that the bridge offers to the network consists of 13 blocks that are linked by their roots and start at the head of the update it answers, with the receipts of those blocks; a bridge that follows a chain answers every update for a recent head with such a bundle, and offers every block of a period once, with a proof, when the period becomes final.", "quantifier": "every sequence of head, update and checkpoint events, every answer of the beacon and execution nodes, every chain and position", "why_tests_cant": "It depends on the history of events (skipped heads, reorgs, missed checkpoints), on a cache that forgets, and on blocks being removed while they are walked.", "anchors": ["bin/portal-bridge/src/bridge/ephemeral_history/mod.rs: EphemeralHistoryBridge", "bin/portal-bridge/src/bridge/ephemeral_history/ephemeral_bundle.rs: EphemeralBundle", "bin/portal-bridge/src/bridge/ephemeral_history/gossiper.rs: gossip_ephemeral_bundle, gossiped_non_ephemeral_headers"]}
{"id": "C70", "title": "Execution blocks are rebuilt exactly from beacon blocks", "statement": "From a beacon block exactly the execution block that its payload describes is built, for every fork: the header has the fields of the payload, the fields that the fork adds and the block hash that the payload states, the transactions and withdrawals are those of the payload, and the body passes validation against the header; a beacon block that carries no such block is refused with an error.", "quantifier": "every beacon block of Bellatrix, Capella, Deneb and Electra, every header and body, every hash function and encoding", "why_tests_cant": "Tests rebuild a few recorded blocks; that no payload gives a header other than the one it hashes to, and that no field is lost for any block of a fork, ranges over all payloads.", "anchors": ["crates/ethportal-api/src/types/execution/builders/block.rs: ExecutionBlockBuilder", "crates/ethportal-api/src/types/execution/builders/header.rs: ExecutionHeaderBuilder", "crates/ethportal-api/src/types/consensus/execution_requests.rs: requests_hash", "crates/ethportal-api/src/types/consensus/execution_payload.rs"]}
{"id": "C71", "title": "Files of the single E2HS generator hold the 8192 proven blocks of their index", "statement": "Whatever the archives and the execution node serve, a file that the single E2HS generator finishes for an index holds exactly the 8192 blocks of that index in order: each with its number, a proof that header validation accepts (with the summaries of an era file of the archive), and a body and receipts whose roots are in the header; it can be read back and is named after the hash of its last block. If archives and node are honest and the blocks are in at most three files, the file is made and holds the blocks of the chain, also across the merge. A listing of files is accepted exactly if its indices are 0, 1, 2, ... without a gap.", "quantifier": "every index, answers of archives, node and accumulator directory, hash functions, lossless codecs, number of rounds, and presence of a temporary file", "why_tests_cant": "The binary search over era files, the sequence of downloads, the boundary of the merge and the offsets must be right for all 8192 blocks of every index and every layout of blocks in eras; tests download a few files.", "anchors": ["bin/e2hs-writer/src/subcommands/single_generator/e2hs_builder.rs E2HSBuilder", "bin/e2hs-writer/src/subcommands/single_generator/provider.rs EraProvider", "bin/e2hs-writer/src/subcommands/single_generator/era_binary_search.rs EraBinarySearch::fetch_era_file", "bin/e2hs-writer/src/subcommands/full_block.rs FullBlock::validate_block", "crates/e2store/src/utils.rs assert_nonempty_and_consecutive_epochs", "crates/ethereum-rpc-client/src/execution.rs get_receipts_range"]}
{"id": "C72", "title": "The head generator keeps a bucket of E2HS files without gaps, each complete and proven", "statement": "Whatever consensus and execution nodes and the object store answer, and whenever the head generator is started or killed: the bucket keeps holding files for consecutive indices, no key is lost, and every object that it adds is the complete E2HS file of its index (8192 blocks in order, each with an accepted proof and matching body and receipts), under the key for that index and the hash of its last block; a file is only made when all its blocks are before the first block of the period that the node has finalized. The parts of an upload have the numbers 1, 2, ..., add up to the file and are at most 100 MiB. A restart continues after the last file. With honest nodes and a working store each round makes the next file as soon as its blocks are provable, and it holds the blocks of the chain.", "quantifier": "every history of starts, kills and rounds, every answer of nodes (also different for each block) and of the store, every chain of Electra blocks with at most five skipped slots in a row, every bucket without a gap below index 100000", "why_tests_cant": "The generator runs for months against live nodes with skipped slots, restarts and failing uploads at any point; tests cover none of those histories.", "anchors": ["bin/e2hs-writer/src/subcommands/head_generator/mod.rs HeadGenerator", "bin/e2hs-writer/src/subcommands/head_generator/e2hs_builder.rs E2HSBuilder", "bin/e2hs-writer/src/subcommands/head_generator/s3_bucket.rs S3Bucket", "crates/ethereum-rpc-client/src/consensus/mod.rs ConsensusApi::find_first_beacon_block", "crates/ethereum-rpc-client/src/consensus/mod.rs ConsensusApi::get_state_for_start_of_next_period"]}
{"id": "C73", "title": "The calls on an overlay network: requests between two nodes, records, publishing and matching of responses", "statement": "A request (ping, find nodes, find content, offer) to any node is answered by what the handler of that node makes of it; malformed bodies get an empty answer and cause nothing; a response reaches the caller only if the body is the encoding of exactly that response. A ping carries the node's own data and is answered with the other node's sequence number and radius. Distances are checked before they are asked for, and the answer holds at most 32 records of the node or its connected peers at these distances. Content that a node has is returned whatever its size if it is valid, and nothing that is invalid is ever returned; otherwise the closest peers of the node. An offer gives one verdict per item in order; the accepted items, and only those, arrive at the node paired with their keys, over connection ids that meet. Records that are added are found until they are deleted. A lookup of a record returns a record of the node asked for. Published content is offered once to at most eight suitable peers and the count in the answer is the number of offers. Each caller is sent exactly the first answer to its own request, and no caller two.", "quantifier": "every request, every state of the serving node, every answer of a peer, every record codec that is lawful, every history of requests and answers, every table", "why_tests_cant": "Two nodes with their encodings, framing, connection ids and version negotiation are involved, and requests overlap in any order; tests run a few requests between equal nodes.", "anchors": ["crates/portalnet/src/overlay/protocol.rs OverlayProtocol", "crates/portalnet/src/overlay/service/manager.rs OverlayService::{handle_request, send_talk_req, process_response, find_enr}", "crates/portalnet/src/overlay/service/find_nodes.rs", "crates/portalnet/src/overlay/service/offer.rs", "crates/subnetworks/state/src/events.rs StateEvents::handle_talk_request"]}
{"id": "C74", "title": "Requests and events reach the subnetworks they are meant for; slot clock, cache of addresses, uTP over requests", "statement": "On each network the protocol identifiers and subnetworks correspond one to one. Whatever requests, events and failures arrive in whatever order, each subnetwork that was started is handed exactly the requests that carry its identifier and the events that are meant for it and do not come from it, each once, in the order of arrival, as long as it listens; nobody is handed anything else; uTP gets the requests with its identifier. Requests of the main network are not taken on a test network. A request that a node sends on a subnetwork is handed to that subnetwork of the other node. The record that is looked up for a node is that of the last session with it while that is cached, and it stays cached until as many other nodes as the capacity were seen. Slots and times convert into each other; uTP packets arrive whole with the identity of their sender.", "quantifier": "every network, every list of started subnetworks, every history of requests, events, failures and ends of receivers, every protocol byte string, every history of the cache", "why_tests_cant": "Requests and events interleave in any order and the identifiers are looked up by text; tests send single requests and compare single identifiers.", "anchors": ["crates/portalnet/src/events.rs PortalnetEvents::{start, dispatch_discv5_talk_req, dispatch_overlay_event, send_overlay_request}, Timestamp", "crates/ethportal-api/src/types/network_spec.rs NetworkSpec", "crates/portalnet/src/discovery.rs Discovery::{send_talk_req, find_enr, cached_node_addr}, Discv5UdpSocket, UtpPeer"]}
{"id": "C75", "title": "The command line of the node: what is accepted, what it means, what is started", "statement": "A command line is accepted exactly if every value has the right form and the flags fit together: IPC flags with IPC only, HTTP and WebSocket flags with HTTP only, no external address together with STUN switched off, a WebSocket port only with WebSocket, every subnetwork together with the ones it needs, either a total size or one size for each enabled subnetwork and for no other. An accepted command line means what it says: names, keys, roots, radius and sizes are the ones given or the documented defaults. The node then starts: exactly the subnetworks asked for run, each with its share of the storage and the radius asked for (the whole distance for beacon), and the JSON-RPC server answers exactly the methods of these subnetworks, of discv5 and web3 and, with legacy history, of eth, over exactly the transport asked for.", "quantifier": "every combination of flag values, every text given for a subnetwork list, key, root, transport, network or boot node list, every result of resolving the HTTP address", "why_tests_cant": "The flags combine into thousands of cases and the texts are unbounded; tests cover a few dozen command lines and never start the node with them.", "anchors": ["bin/trin/src/cli.rs TrinConfig::new_from", "crates/utils/src/cli.rs subnetwork_parser, network_parser, max_radius_parser, check_private_key_length", "crates/ethportal-api/src/types/network.rs Network, Subnetwork", "crates/portalnet/src/bootnodes.rs Bootnodes", "bin/trin/src/run.rs run_trin_from_trin_config, run_trin_internal", "crates/rpc/src/lib.rs launch_jsonrpc_server", "crates/rpc/src/builder.rs RpcModuleBuilder"]}
{"id": "C76", "title": "The command line of the bridge: modes, ranges, identities, and which bridge runs", "statement": "Modes, block ranges and bridge identities are read exactly from their texts (latest, e2hs, ephemeral-history, single:rA-B with A at most B, snapshot:N; A-B or A-; I/N with I from 1 to N), every number of 64 bits can be given, and every other text is refused with an error. The bridge that runs is the one that subnetwork and mode ask for, with the range, identity and limit given, on a node that takes part in that subnetwork and those it needs, stores nothing and serves no RPC. A command line without flags runs a bridge.", "quantifier": "every combination of flag texts", "why_tests_cant": "Texts are unbounded and combine; tests parse a handful of them, and main, which chooses the bridge, is not tested.", "anchors": ["bin/portal-bridge/src/types/mode.rs BridgeMode, ModeType", "bin/portal-bridge/src/cli.rs BridgeConfig, BridgeId", "bin/portal-bridge/src/bridge/e2hs.rs BlockRange", "bin/portal-bridge/src/handle.rs start_trin, subnetworks_flag", "bin/portal-bridge/src/main.rs main"]}
{"id": "C77", "title": "The beacon bridge: what it announces to the network and how often", "statement": "Everything the bridge announces comes from the answers of its consensus client under a key that says what it is (root of the bootstrap, period and count of the update, finalized slot, signature slot, epoch of the summaries), goes to the peers that the census selects, and is accepted by every peer whose own light client agrees; summaries carry a proof that leads to the root of their state. No period, finalized slot, bootstrap or state is announced twice, new data is announced at the next tick, also after failed requests, and no two downloads run at once.", "quantifier": "every schedule of ticks and of the steps of the tasks, every sequence of answers of the clock, the consensus client and the census", "why_tests_cant": "Tasks of successive ticks overlap and race on shared values between any two awaits; the bridge has no tests, and tests fix one schedule.", "anchors": ["bin/portal-bridge/src/bridge/beacon.rs BeaconBridge", "crates/ethportal-api/src/types/consensus/beacon_state.rs build_historical_summaries_proof", "crates/subnetworks/beacon/src/validation.rs BeaconValidator"]}
{"id": "C78", "title": "The E2HS bridge offers every block of its range once, in order, within its limits", "statement": "The bridge reads the archive files of the epochs of a block range and offers header (by hash and by number), body and receipts of each block that is in the range and passes the checks to all peers the census selects: nothing else, nothing twice, and when it has finished nothing is missing. The header under its hash comes first, body and receipts two seconds later; no more offers or blocks are under way than the limit, of at most two epochs; results are counted and recorded once each. It is never stuck and ends.", "quantifier": "every content of the files, every answer of the census and of the peers, every order of the epochs, every interleaving of the launcher, block, content and offer tasks, every passing of time", "why_tests_cant": "Launcher and tasks share two semaphores and wait for each other; tests of the bridge need a network and see one schedule.", "anchors": ["bin/portal-bridge/src/bridge/e2hs.rs E2HSBridge", "bin/portal-bridge/src/bridge/offer_report.rs", "crates/e2store/src/e2hs.rs E2HSMemory::iter_tuples", "crates/e2store/src/utils.rs"]}
{"id": "C79", "title": "A node keeps its identity over restarts", "statement": "A data directory has one identity: once its key file exists nothing the nodes do changes it and every later start in the directory without a given key runs with the key in the file; starts one after another all have the same key. A start uses the directory that the flag, the environment variable or the default asks for, and fails when both flag and variable are given; an ephemeral start gets a directory that did not exist and shares it with no other; a start with a given key uses that key and changes no file; a start on its own with no file in the way runs. The node directory is named after the network and the first four bytes of the node id.", "quantifier": "every content of the file system, every sequence of starts with all options, every interleaving of their steps, every file system error and crash at any point, also in the middle of writing the key", "why_tests_cant": "Tests start one node in an empty directory; they do not run two starts at once or stop one while it writes.", "anchors": ["crates/portalnet/src/utils/db.rs configure_trin_data_dir, configure_node_data_dir, get_node_data_dir", "crates/utils/src/dir.rs setup_data_dir"]}
{"id": "C80", "title": "Era files are written and read without loss, each block with the fork of its slot", "statement": "An era file is read, with a result, exactly when its records are version, blocks, state and the two slot indices, with as many blocks as slots that the index does not mark as empty, and blocks and state decode with the forks of their slots; an era that is written is read back. All slots of an era have the same fork. Reading only the state, or only the first block with two range requests, gives what reading the whole file gives. Whether an era contains a block number is answered rightly when its blocks follow each other. A file of at least four records about slots since Bellatrix never aborts the reader.", "quantifier": "every file, every era, every slot, all encodings of blocks and states", "why_tests_cant": "Tests read a few downloaded files; they cannot cover every index, every slot at a fork boundary or damaged files.", "anchors": ["crates/e2store/src/era.rs Era, get_beacon_fork", "bin/e2hs-writer/src/subcommands/single_generator/era_binary_search.rs download_first_beacon_block_from_era"]}
{"id": "C81", "title": "A state snapshot holds the state, and importing it gives the same node state", "statement": "The E2SS file that is exported after a history holds each account once, with its code and its slots that are not zero, in the order of their hashes, and the header with the state root. Imported into a new data directory it gives the same answer to every read of accounts, storage and code of accounts, the same state root and position and the hashes of the last blocks, and execution goes on as if the history had been executed there. A file is imported exactly when storage, code and accounts hash to what its accounts and its header say; the position moves only then, and an import is refused where there is a state already. Files are written and read without loss, in parts of bounded size.", "quantifier": "every history, every state in scope, every file, every header, all later histories", "why_tests_cant": "Tests export and import one small state; they cannot cover every state, files from other sources, partial storage or what happens after the import.", "anchors": ["crates/e2store/src/e2ss.rs E2SSWriter, E2SSReader", "bin/trin-execution/src/subcommands/e2ss/export.rs StateExporter", "bin/trin-execution/src/subcommands/e2ss/import.rs StateImporter"]}
{"id": "C82", "title": "A content lookup ends once, returns only confirmed content, and its trace tells what happened", "statement": "A content lookup never aborts and answers at most once; nobody is asked twice or after the answer, and everybody who is asked was named before and can be reached. Content the node has is returned at once and nobody is asked; otherwise content is returned only if the validator accepted exactly these bytes as they came from the peer that the trace names, or if it is the node's own value, and content that passes is returned by the next poll. A poll that does nothing happens before the time of the lookup is over. There is a trace exactly if it was asked for; every node in it has an entry with its own newest ENR and its distance, each node is listed under the first peer that named it, failures have a reason, and found content comes with the peers that were still awaited. Content is stored, gossiped and offered exactly under the stated conditions, to the closest peers that answered and whose radius covers it. Over JSON-RPC a lookup without result is error -39001 with the trace.", "quantifier": "every start, every order of polls, answers, ends of tasks and trace events, every content of messages, all views of store, validator and routing table", "why_tests_cant": "Tests run a lookup against one or two scripted peers; they cannot cover every interleaving of answers, timeouts, transfers, validation and trace events, or messages that name arbitrary nodes.", "anchors": ["crates/portalnet/src/overlay/service/find_content.rs init_find_content_query, process_content, handle_find_content_query_event, process_received_content, poke_content", "crates/portalnet/src/overlay/service/manager.rs find_enr, track_content_query_trace_event", "crates/portalnet/src/find/query_pool.rs QueryPool::poll", "crates/ethportal-api/src/types/query_trace.rs QueryTrace", "crates/subnetworks/legacy-history/src/jsonrpc.rs get_content, local_content", "crates/rpc/src/errors.rs RpcServeError", "crates/rpc/src/fetch.rs proxy_to_subnet"]}
{"id": "C83", "title": "JSON-RPC methods do exactly what their parameters say and answer with the result", "statement": "Every JSON-RPC method of the beacon, state and legacy history networks makes exactly one call of the overlay network, the store or the light client, with the parameters it was given, and answers with the result of that call: what is written as JSON by the subnetwork is read back as the same result. A failing call is an error (-32099; a lookup that found nothing is -39001 with its trace; ping payloads that are unknown, not of the network, undecodable or without type are -39004, -39005, -39006). Offers of no or more than 64 items and values that are not of their key are refused, and then nothing at all happens. In the state and beacon networks the bytes stored, offered and gossiped are those given. discv5_lookupEnr answers only with a record of the node that was asked for.", "quantifier": "every method and its parameters, every state and behaviour of the overlay network, the store, the light client and the peers; any text and JSON encodings of ENRs, ids and numbers that can be read back", "why_tests_cant": "Tests call methods with a few values on a mocked or idle node; they do not compare every result with what the overlay did, nor try every malformed value, payload or failure.", "anchors": ["crates/rpc/src/legacy_history_rpc.rs LegacyHistoryNetworkApi", "crates/rpc/src/state_rpc.rs StateNetworkApi", "crates/rpc/src/beacon_rpc.rs BeaconNetworkApi", "crates/rpc/src/fetch.rs proxy_to_subnet", "crates/rpc/src/ping_extension.rs parse_ping_payload", "crates/rpc/src/errors.rs RpcServeError", "crates/rpc/src/discv5_rpc.rs Discv5Api", "crates/subnetworks/legacy-history/src/jsonrpc.rs complete_request", "crates/subnetworks/state/src/jsonrpc.rs handle_request", "crates/subnetworks/beacon/src/jsonrpc.rs complete_request", "crates/ethportal-api/src/types/portal.rs PongInfo, FindContentInfo, TraceContentInfo", "crates/ethportal-api/src/types/query_trace.rs QueryTrace", "crates/portalnet/src/discovery.rs Discovery::node_info"]}
{"id": "C84", "title": "The light client starts from its checkpoint, follows verified messages and keeps running", "statement": "The client of the beacon network starts from the trusted root it was given, tries at most ten times with ten seconds between, and fails exactly if ten starts fail; whatever the network answers, all it believes after a start and after any number of turns of its thread goes back to that root by bootstrap and verified messages, and with honest committees it is on the chain, as is the checkpoint it saves. It asks for the bootstrap, each missing period, the finality and the optimistic update, in this order and nothing else. Its head is given exactly if it is at most ten slots old. Failed requests do not end its thread, whose turns come eight seconds into a slot. The checkpoint is the one given, else configured, else saved, else built in; a torn file is not taken for one. Another checkpoint is used only if the client looks at its age, and then that of the given service or one elected by the healthy services.", "quantifier": "every behaviour of the network, RPC, services and clock, every builder, configuration and saved file, any number of turns", "why_tests_cant": "Tests synchronise against one recorded server; they do not make services lie, cut files short, run the thread for long or let every attempt fail.", "anchors": ["crates/light-client/src/client.rs Client, ClientBuilder, start, sync, boot_from_fallback, get_header, check_head_age", "crates/light-client/src/node.rs Node", "crates/light-client/src/database.rs FileDB", "crates/light-client/src/config/checkpoints.rs CheckpointFallback", "crates/light-client/src/config/base.rs, networks.rs, client_config.rs", "crates/light-client/src/consensus/consensus_client.rs sync, advance, bootstrap, duration_until_next_update", "crates/light-client/src/consensus/rpc/portal_rpc.rs PortalRpc", "crates/subnetworks/beacon/src/sync.rs BeaconSync"]}
{"id": "C85", "title": "Node lookups ask the closest known nodes and answer with the closest that answered; refreshes reach the farthest buckets", "statement": "A lookup for a node id never aborts, whatever peers answer and whenever it is polled. It asks only nodes it knows, the closest to the target first, nobody twice, with the wanted number of log2 distances nearest to that of the asked node and the target. It gives one answer, after which nothing follows: at most the wanted number of nodes, all of which answered, in increasing distance, none left out that is closer, with records that came from the routing table or from peers. It answers early only if everybody it has not heard from is farther than all in a full answer; it answers when everybody it knows answered, failed or let the time pass, and once its time is over and there is nobody left to ask. At the start the node looks up itself and one random id in each of the 17 farthest buckets, and a refresh looks up a random id in one of these.", "quantifier": "every table, target, configuration, order and content of answers, and times of polls, of any number; every draw of the random source", "why_tests_cant": "Tests run a lookup against a few friendly peers; they do not have peers name the target, the node itself or other records of themselves, and do not look at where random ids lie.", "anchors": ["crates/portalnet/src/overlay/service/find_nodes.rs init_find_nodes_query, process_nodes, handle_find_nodes_query_event, advance_find_node_query", "crates/portalnet/src/overlay/service/manager.rs query_event_poll, find_enr, initialize_routing_table, bucket_refresh_lookup", "crates/portalnet/src/find/query_info.rs rpc_request", "crates/portalnet/src/overlay/protocol.rs lookup_enr"]}
{"id": "C86", "title": "The bridge only believes in peers that answer its pings, and checks them every five minutes", "statement": "The set of peers that the census of the bridge may select for an offer is exactly what the exchanges with them show: a node is in it if and only if it answered a ping with its capabilities (and sent its own record when it claimed to have a newer one) and its last ten checks have not all failed since. Radius and client type are those of the last such answer, the record is its own and came from a lookup or from the node. A known node is not pinged within five minutes of the last result, and is pinged when they are over. Exploring the network checks each node found once, with its newest record, in whatever order; it goes on while every round adds at least a tenth of all peers, ends in a finite network, and succeeds if and only if somebody is known at the end. Calls for a subnetwork concern that subnetwork alone. The census is started at most once, and then every wanted subnetwork has a peer.", "quantifier": "every sequence of lookups, checks, re-initialisations and offer results, every answer of every peer, all times", "why_tests_cant": "Tests cover single operations of the peer table; the exploration and the background service talk to a network and are not tested at all.", "anchors": ["bin/portal-bridge/src/census/network.rs Network::init, liveness_check, fetch_enr, select_peers, NetworkManager", "bin/portal-bridge/src/census/mod.rs Census::init, select_peers, select_random_peers, record_offer_result", "bin/portal-bridge/src/census/peers.rs Peers"]}
{"id": "C87", "title": "The bridge gossips a bundle completely, headers first, within its limits", "statement": "Whatever bundles of recent blocks and headers of final periods the bridge gossips at the same time, it never has more offers under way than its two limits allow. Every offer carries the headers of one bundle together, or one body, list of receipts or header under its own key, and goes to a peer that was chosen for it, in the order of the choice and once per choice. No body or receipts are offered before all offers of the headers of their bundle have been over for two seconds. When a call returns, everything was offered to all peers chosen for it, all offers are over, and a header went out by hash and by number. The census is told of the result of every offer of a single item, once, with the length of the value. With positive limits there is no deadlock, the work is bounded, and everything can come to an end.", "quantifier": "every schedule of the concurrent tasks, all calls, all choices of peers, all results and times", "why_tests_cant": "The gossiper has no tests; its concurrency needs a network of peers, and deadlocks depend on the schedule.", "anchors": ["bin/portal-bridge/src/bridge/ephemeral_history/gossiper.rs Gossiper::gossip_ephemeral_bundle, gossiped_non_ephemeral_headers, gossip_content, send_offer, gossip_content_header_series, send_offer_with_header_series", "bin/portal-bridge/src/main.rs EphemeralHistoryBridge::new"]}
{"id": "C88", "title": "Providers of chain data: primary first, fallback when nothing can be read, bounded requests", "statement": "Every request of the bridge and the E2HS writer to execution or consensus nodes goes to the primary provider first, again up to three times while the failure looks temporary, and to the fallback exactly if nothing could be read from the primary; what is returned was read from the last answer of the one or the other, and no third host is asked. The number of requests is bounded whatever the providers do. Questions to consensus nodes have distinct endpoints, block numbers are sent exactly. Null receipts are asked for again up to five times; receipts of several blocks are asked for in batches of ten, and each block gets what is at its position in the answers. Offline providers do not keep the clients from starting. Events arrive in order, and errors end nothing. Credentials are only sent to hosts with pandaops.io in their name.", "quantifier": "all providers (every answer to every request, depending on all that happened before), all addresses, questions, numbers, streams of events", "why_tests_cant": "Tests would need providers that fail in all ways; the crate has no tests of its failure handling.", "anchors": ["crates/ethereum-rpc-client/src/http_client.rs ClientWithBaseUrl, get_authorization_headers", "crates/ethereum-rpc-client/src/execution.rs ExecutionApi", "crates/ethereum-rpc-client/src/consensus/mod.rs ConsensusApi", "crates/ethereum-rpc-client/src/consensus/event.rs BeaconEvent"]}
{"id": "C89", "title": "The address in the own record, and what is done to find it", "statement": "The record a node publishes has the address the user gave, or else the one STUN reports, or else that of a UPnP gateway which mapped the port, or none; a gateway that contradicts the given address keeps the node from starting. STUN and gateways are only contacted where the switches allow it, and with both switched off nobody is contacted before the start. Records of later starts replace those of earlier ones. The table starts with the latest record of each bootnode, without the node itself. A mapped port stays mapped as long as no two renewals in a row fail.", "quantifier": "all configurations, all answers of STUN server, gateway, interfaces and clock, all lists of bootnodes, all patterns of failing renewals", "why_tests_cant": "It depends on the network around the node; there are no tests of it.", "anchors": ["crates/portalnet/src/discovery.rs Discovery::new", "crates/portalnet/src/socket.rs stun_for_external, is_local_addr, upnp_for_external", "crates/portalnet/src/config.rs PortalnetConfig"]}
{"id": "C90", "title": "uTP streams: success only when everything was transferred, and exact counters", "statement": "A stream that sends content reports success exactly if it was connected, all bytes were written and it was closed; a stream that receives content gives exactly the bytes read up to the end of the stream, or an error. Each stream connects or accepts with the ids and the peer it was given, writes all its data once and closes only after that, and ends after at most three answers of the socket. The gauge of active streams is at all times the number of streams that have not ended, each stream is counted once under its outcome, and the line in the log adds up.", "quantifier": "all numbers of streams, all interleavings of their steps, all answers of the uTP socket", "why_tests_cant": "Tests transfer a few contents over a working network; they do not fail at each step nor interleave streams.", "anchors": ["crates/portalnet/src/utp/controller.rs UtpController::inbound_stream, outbound_stream", "crates/metrics/src/overlay.rs report_utp_outcome, report_utp_active_inc, get_utp_summary"]}
{"id": "C91", "title": "A history node gives to others only content that is what its key says", "statement": "Whatever peers send and in whatever order transfers, lookups, restarts and kills happen: content that a legacy history node stores, answers requests or lookups with, or passes on (also when it has to leave the store), was put in by its operator, or was sent by a peer and is what its key says: a header with this hash or number whose proof was accepted, or a body or receipts to which the header with this hash commits. So for the hash of a block the node gives the header, the transactions and uncles (with the withdrawals or without) and the receipts of that block, or a hash collision is shown, and before the merge the header for a number is that of the chain. Once the header is stored, the true body and receipts are accepted. The operator is trusted: a header the operator puts under a wrong hash makes the node take wrong bodies from peers.", "quantifier": "all sequences of events (content from peers, storing, header questions, operator calls, restarts, kills in the middle of an insertion), all contents, all sizes of the store", "why_tests_cant": "Tests send a few valid and invalid contents to the validator and to the store separately, with mocked header answers; they do not follow wrong content through the node.", "anchors": ["crates/portalnet/src/overlay/service/offer.rs validate_content, store_content", "crates/portalnet/src/overlay/service/find_content.rs process_received_content, init_find_content_query", "crates/portalnet/src/overlay/protocol.rs propagate_put_content", "crates/validation/src/oracle.rs recursive_find_header_by_hash_with_proof", "crates/subnetworks/legacy-history/src/storage.rs", "crates/subnetworks/legacy-history/src/validation.rs", "crates/subnetworks/legacy-history/src/jsonrpc.rs store"]}
{"id": "C92", "title": "A state bridge offers every piece of the state it was asked for, and accounts for every offer", "statement": "Items are taken in order; each is offered once to every peer the census selects, at most as many offers at a time as the limit allows, and the process ends only when every item was offered. Every offer that ends is told to the census once, with its size, duration and result, an unanswered offer fails after two minutes, and the reports count exactly the offers that ended. Even if no peer answers the bridge comes to its end. Bridges 1 to n together offer every item exactly once. For a range of blocks it gossips the states after exactly these blocks, in order. For a snapshot, after any history of launches and kills, what it gossips is the state of a complete and consistent file downloaded for that block.", "quantifier": "all items, batches, census answers, limits, schedules of offers, answers, timeouts and signals; all valid chains and block ranges, all download failures; all histories of launches, kills, files and servers", "why_tests_cant": "Tests do not run the bridge; the order of answers, timeouts and the end of the process, and kills between the writes of an import, are schedules.", "anchors": ["bin/portal-bridge/src/bridge/state.rs launch, launch_state, launch_snapshot, spawn_offer_tasks, acquire_offer_permit", "bin/portal-bridge/src/bridge/offer_report.rs", "bin/portal-bridge/src/main.rs", "bin/trin-execution/src/subcommands/e2ss/import.rs"]}
{"id": "C93", "title": "A beacon node gives only what its light client could accept, and trust passes from one start to the next", "statement": "After any sequence of transfers, stores, prunings, light client starts, messages and restarts, whatever the node gives for a key fits that key and was put in by the operator or was sent by a peer when it was acceptable to the light client of that moment; acceptable content the node lacks is given once stored. A process trusts the configured root, else that of its newest bootstrap, else the built-in one, and does not change it; its light client descends from that root. If committees, configured roots and the operator are honest and no forged bootstrap is accepted before the light client runs, the light client follows the chain through all restarts and the bootstraps and summaries given are of the chain, so that the history network gets the summaries it needs.", "quantifier": "all sequences of events (content, failing writes, prunings, starts, messages, restarts with any configuration), all hash functions and signature schemes, all keys", "why_tests_cant": "What a node gives depends on the whole history of what arrived while the light client stood where; tests check one validation or one store operation.", "anchors": ["crates/subnetworks/beacon/src/network.rs BeaconNetwork, get_trusted_block_root", "crates/subnetworks/beacon/src/validation.rs", "crates/subnetworks/beacon/src/storage.rs", "crates/validation/src/oracle.rs", "crates/subnetworks/beacon/src/sync.rs"]}
{"id": "C94", "title": "A state node gives only nodes and code with the right hash, and the eth endpoints on top of it answer what the state of the block says", "statement": "After any sequence of transfers, lookups, stores, kills and restarts, whatever the node stores or returns for a key is a trie node or code with the hash in the key; what it stores and passes on came with a proof from a peer or from its operator. The balance, storage slot and code that the eth endpoints answer are those of the account in the state of that block, whatever peers of both networks sent. Content with a valid proof that fits in the radius and the room of the node is kept and given; a node that gets all items of a snapshot of a state has the whole state, and answers balances and slots from it.", "quantifier": "all sequences of events on both networks, all hash functions and decoders, all keys, addresses, slots and blocks, all states and snapshots", "why_tests_cant": "The answer to one balance request depends on what all peers sent before; tests check one validation, one store operation or one trie read at a time.", "anchors": ["crates/subnetworks/state/src/network.rs StateNetwork", "crates/subnetworks/state/src/storage.rs", "crates/subnetworks/state/src/validation/validator.rs", "crates/portalnet/src/overlay/service/find_content.rs process_received_content", "crates/portalnet/src/overlay/service/offer.rs", "crates/rpc/src/eth_rpc.rs"]}
{"id": "C95", "title": "Content given to one node arrives, is passed on from node to node, and can be fetched", "statement": "If nothing is in the way of an offer (at most 64 distinct keys, same version on both sides, a free slot, content wanted, valid and with room in the store), every offered item is readable at the receiving node afterwards, nothing it had is lost, it goes on to offer exactly these items, and any node that asks for an item gets it, in the reply or over a stream. On a chain of nodes of any length in which each has the next among the peers it selects, content given to the first is at every node of the chain and is served by the last. Whatever is offered by whomever, a node only stores content it wants and found valid under an offered key, and a reader only gets content it found valid.", "quantifier": "all nodes, stores, offers, keys and values, all protocol versions, all connection ids, all chains of nodes", "why_tests_cant": "The path crosses request encoding, accept codes, connection ids, payload framing, validation, store and recipient selection of several nodes; tests check each alone, or a whole network for a few values.", "anchors": ["crates/portalnet/src/overlay/service/offer.rs handle_offer, process_accept", "crates/portalnet/src/overlay/service/manager.rs handle_request", "crates/portalnet/src/put_content.rs propagate_put_content_cross_thread", "crates/portalnet/src/gossip/mod.rs gossip_recipients", "crates/portalnet/src/overlay/protocol.rs send_find_content", "crates/subnetworks/legacy-history/src/storage.rs", "crates/subnetworks/state/src/storage.rs"]}
{"id": "C96", "title": "Blocks from honest archives reach the eth endpoints of a node unchanged", "statement": "A legacy history node accepts all four contents of every block whose header, proof, body and receipts belong together, and with room for them it has them afterwards byte for byte. So when a file bridge has finished a range of blocks and what it served came to a node, eth_getBlockByHash and eth_getBlockByNumber on that node answer every good block of the files in the range with exactly that block. And if the files were made by the generator from honest archives, every block number of the range is answered with the block of the chain.", "quantifier": "all blocks, archives, files, ranges and orders of serving, all stores, caches of summaries and answers of the beacon network that are part of the right list, all deliveries of any length, with headers from the store or looked up", "why_tests_cant": "The path goes through the generator, the file format, the bridge, content keys and values, header proofs, body and receipt checks, the store and the endpoint; each is tested alone with a few blocks.", "anchors": ["bin/e2hs-writer/src/subcommands/single_generator/e2hs_builder.rs E2HSBuilder", "bin/portal-bridge/src/bridge/e2hs.rs E2HSBridge", "crates/subnetworks/legacy-history/src/validation.rs LegacyHistoryValidator::validate_content", "crates/subnetworks/legacy-history/src/storage.rs", "crates/rpc/src/eth_rpc.rs EthApi::{get_block_by_number, get_block_by_hash}"]}
{"id": "C97", "title": "One node can answer for the state of every block of a range", "statement": "When bridges gossip the changes of each block after a first state, everything that belongs to the state of any of these blocks belongs to the first state or was gossiped for one of the blocks; if several bridges share the work and all finish, one of them sent it, valid, to every peer it selected. A state node that holds the contents of the first state and what was gossiped holds the whole state of every block of the range at once, the old ones as well as the newest, and eth_getBalance, eth_getStorageAt and eth_getCode answer for every address at every one of these blocks whose header is known.", "quantifier": "all first states, all sequences of block changes of any length, all numbers of bridges and their schedules, all stores and further contents, all addresses and slots", "why_tests_cant": "The claim is about the union of many gossiped differences over time: tests look at one block and one trie, and newer nodes must never replace what older states need.", "anchors": ["bin/portal-bridge/src/bridge/state.rs StateBridge", "bin/trin-execution/src/trie_walker", "crates/subnetworks/state/src/{validation,storage.rs}", "crates/rpc/src/eth_rpc.rs EthApi::{get_balance, get_code, get_storage_at}", "crates/rpc/src/evm_state.rs EvmBlockState"]}
{"id": "C98", "title": "Light clients can follow the chain with what bridges and nodes give them", "statement": "If the node that its lookups reach gives the bootstrap of the trusted root, the update of each period since, and the newest finality and optimistic update, the light client starts at the first attempt and is then at the newest finalized header and the newest header; each later turn brings it to what the network has at that turn, across changes of the period, for any number of turns. What a bridge announces and the light client of a node agrees with is given by that node once kept; a node whose own light client is near accepts the newest updates and gives them under the keys that light clients ask for; updates are given for ever, a bootstrap until it is 120 days old.", "quantifier": "all chains with honest committees, all trusted roots, all numbers of periods between the root and now, all sequences of turns, all answers of consensus clients and schedules of the bridge, all histories of the node", "why_tests_cant": "A test starts a client against one recorded set of updates; that every honest set leads to the newest headers, over every number of periods and turns, is an induction over them.", "anchors": ["crates/light-client/src/consensus/consensus_client.rs ConsensusLightClient::{sync, advance, apply_generic_update, verify_generic_update}", "crates/light-client/src/consensus/rpc/portal_rpc.rs PortalRpc", "crates/subnetworks/beacon/src/sync.rs BeaconSync::start", "crates/subnetworks/beacon/src/{validation,storage,network}.rs", "bin/portal-bridge/src/bridge/beacon.rs BeaconBridge"]}
{"id": "C99", "title": "What a full node says, from its root of trust to its answers, is on the chain", "statement": "A node that runs the beacon, the history and the state network in one process, and starts from a trusted root with empty databases, whatever its peers send in whatever order: the historical summaries that its validator is told are a beginning of the true list; every header that it stores, answers or passes on is the one that the chain has at the place its proof names, and has the hash or number it is given for; two such nodes never give different headers for one number; the blocks, balances, storage values and code that its eth endpoints return are those of that block and its state. Once acceptable summaries were sent to it, contents of blocks with right proofs are taken and given.", "quantifier": "all chains (with blocks of every past form, and periods with missed slots), all orders of the events of the three networks, all messages of peers, all keys and contents, all blocks asked for", "why_tests_cant": "A test validates one recorded header against one recorded list of summaries. That no sequence of messages over three networks makes a node answer something that is not on the chain is an invariant over all histories, joined to the binding of Merkle proofs of every length.", "anchors": ["bin/trin/src/run.rs run_trin", "crates/validation/src/oracle.rs HeaderOracle", "crates/validation/src/historical_summaries_provider.rs HistoricalSummariesProvider", "crates/validation/src/header_validator.rs HeaderValidator", "crates/subnetworks/beacon/src/network.rs BeaconNetwork", "crates/subnetworks/legacy-history/src/validation.rs LegacyHistoryValidator", "crates/rpc/src/eth_rpc.rs EthApi"]}
{"id": "C100", "title": "eth_call gives the result of the call on the true state of the block asked for", "statement": "eth_call starts the EVM with the rules of the fork, the environment of the block and the transaction that was asked for (gas that is not given is that of the block, a price that is not given is the base fee). If the EVM runs to its end, what is returned is the output it gives on the true state of the block with the hash or number that was asked for, and a revert or halt is reported as such; this holds whatever validated answers the networks give while it runs. If the networks hold the header and the state, every call ends with its result. No call aborts the node. Calls should also be able to read block hashes, use the rules of Prague and take the type of the transaction into account; these are false.", "quantifier": "every EVM (any program that asks for accounts, code, slots and block hashes and goes on with the answers), every request, every block, every validated answer of the networks at every moment of the run", "why_tests_cant": "The number and order of reads is decided by the contract that is called, and the network can answer each read differently; the property is an induction over all programs and all histories of answers, with caches in between.", "anchors": ["crates/rpc/src/eth_rpc.rs EthApi::call", "crates/evm/src/async_db.rs execute_transaction, WrapAsyncDatabase", "crates/evm/src/lib.rs create_block_env, create_evm", "crates/evm/src/tx_env_modifier.rs TransactionRequest::modify", "crates/rpc/src/evm_state.rs EvmBlockState"]}
{"id": "C101", "title": "What a node says about its protocol in its record is what other nodes read, and both come to the same version", "statement": "For all bytes of a peer's record: the entry p is read exactly if it is an RLP list that begins with the lowest version, the highest version and the chain id in their only RLP form, with the lowest not above the highest; further fields are skipped and what follows is left unread. The entry pv is read exactly if it is the RLP string of at most eight versions. What a node writes is such an entry, of the announced length, and is read back unchanged. The highest common version of two entries p is the greatest version in both ranges, if the chains are the same, and both sides compute the same; with pv, a node uses the last version of its own list that is in the entry of the peer.", "quantifier": "every byte string as the entry of a record (of any length, with anything after it), every pair of entries, every list of supported versions", "why_tests_cant": "The entry comes from a peer and can be any bytes; RLP has many forms that must be refused and fields of the future that must be skipped, and agreement must hold for each of the 256^4 pairs of ranges.", "anchors": ["crates/ethportal-api/src/types/protocol_info.rs ProtocolInfo", "crates/ethportal-api/src/types/protocol_versions.rs ProtocolVersionList", "crates/ethportal-api/src/types/network_spec.rs latest_common_protocol_version"]}
{"id": "C102", "title": "Content of the History network is read exactly if it is in its only place and form, and valid receipts and bodies are those of the block", "statement": "For every key and all bytes: receipts are read exactly from an RLP list of receipts of EIP-7642, each a list of the type of the transaction, the status, the cumulative gas and the logs, with no field more or less and nothing after the list; bodies are read from exactly the bytes of a body, with nothing after it. What is written is read back under every key of its kind, different values are written differently, and the length announced for a receipt is that of what is written. Against a header, receipts are valid exactly if the header commits to them together with their bloom filters, so that valid receipts are those of the block; a valid body has the transactions, the uncles and the withdrawals of the block; the true ones are valid.", "quantifier": "every key, every byte string, every value, every header, every encoding of the types of the library that is faithful, every hash function (up to a collision between the very items compared)", "why_tests_cant": "The bytes come from peers; nested lists of any number of receipts and logs have to be cut at exactly the right places, and validity must not depend on what a peer leaves out.", "anchors": ["crates/ethportal-api/src/types/content_value/history.rs HistoryContentValue", "crates/ethportal-api/src/types/content_value/history.rs Eip7642Receipt", "crates/ethportal-api/src/types/content_value/history.rs Eip7642Receipts", "crates/ethportal-api/src/types/execution/block_body.rs validate_against_header"]}
{"id": "C103", "title": "Beacon blocks of every fork are read exactly from their bytes, and their hash is that of the tree of their fields", "statement": "For every fork from Bellatrix to Electra and every block, signed or not: its bytes are its fields one after the other, with offsets to those of variable length; bytes are accepted exactly if they are those of a block of the fork asked for, so that there is one way to write a block, and blocks of less than 4 GiB are read back. The slot of an accepted signed block is in its bytes 100 to 107 in every fork. Its hash is that of the tree over its fields, the trees of their fields and so on, equal to that of its header, and two blocks of a fork with the same hash are the same. The proofs built from a block for the header of its execution block are accepted, and era files with blocks are read back.", "quantifier": "every fork, every block with all that it can carry, every byte string, every hash function (up to a collision between the very pairs hashed), every compression that undoes itself", "why_tests_cant": "Blocks nest lists of lists with offsets at every level, and no sample of blocks settles that bytes with shifted offsets, gaps, missing or surplus parts are refused; nor that no two blocks share a hash.", "anchors": ["crates/ethportal-api/src/types/consensus/beacon_block.rs BeaconBlock", "crates/ethportal-api/src/types/consensus/beacon_block.rs SignedBeaconBlock", "crates/ethportal-api/src/types/consensus/body.rs BeaconBlockBody", "crates/ethportal-api/src/types/consensus/execution_payload.rs ExecutionPayload", "crates/ethportal-api/src/types/consensus/execution_requests.rs ExecutionRequests", "crates/e2store/src/era.rs CompressedSignedBeaconBlock"]}
{"id": "C104", "title": "Beacon states of every fork are read exactly from their bytes, and proofs against their hash show what they hold", "statement": "For every fork from Bellatrix to Electra and every beacon state: its bytes are its fields one after the other, with offsets to those of variable length; bytes are accepted exactly if they are those of a state of the fork asked for, so that there is one way to write a state, and states of less than 4 GiB are read back, also from era files. The slot of an accepted state is in its bytes 40 to 47. Its hash is that of the tree over its fields, and two states of a fork with the same hash are the same. The proof of the historical summaries built from an Electra state is accepted by nodes whose light client knows the hash of the state, and no other summaries are. Finality and committee proofs accepted by the light client against the hash of a state show the finalized checkpoint and the committees of that state, and such proofs exist. The hash of a historical batch is that of the pair of its two trees, and the proofs built from it for a block lead there.", "quantifier": "every fork, every state with all that it can carry, every byte string, every proof, every hash function (up to a collision between the very pairs hashed), every compression that undoes itself", "why_tests_cant": "A state has up to 37 fields, lists of up to a trillion elements, and hashes in trees of depth 5 or 6 whose leaves are trees; no sample settles that shifted offsets are refused, that no two states share a hash, or that no proof shows a committee the state does not have.", "anchors": ["crates/ethportal-api/src/types/consensus/beacon_state.rs BeaconState", "crates/ethportal-api/src/types/consensus/beacon_state.rs build_historical_summaries_proof", "crates/ethportal-api/src/types/consensus/beacon_state.rs HistoricalBatch", "crates/ethportal-api/src/types/consensus/historical_summaries.rs HistoricalSummaries", "crates/e2store/src/era.rs CompressedBeaconState", "crates/light-client/src/consensus/utils.rs is_proof_valid"]}
{"id": "C105", "title": "JSON of light client data is read exactly as the beacon API writes it", "statement": "For every fork: a JSON document is read as a beacon header, light client header, bootstrap, update, finality update, optimistic update or light client store exactly if it is an object with each of the fields once, in any order, whose values stand for those of the data (numbers as such or in quotes, hashes in hex digits, branches of the right length), or an array of them in order; light client data with a field the fork does not have are refused. Whatever is written is read back as the same data, also inside the object that names the fork. An answer of a provider gives the data in its data field, a list of answers gives them in order or nothing at all. No document aborts the program that reads it, and keys and signatures of a wrong length are refused.", "quantifier": "every fork, every JSON document, all data, every list of answers, whatever else the number and hex readers of the libraries take", "why_tests_cant": "Documents come from providers outside; a test checks files that were recorded once, but not fields in another order, twice, missing or unknown, values of every wrong length, or that no two data share a document.", "anchors": ["crates/ethportal-api/src/types/consensus/light_client/bootstrap.rs LightClientBootstrap", "crates/ethportal-api/src/types/consensus/light_client/update.rs LightClientUpdate", "crates/ethportal-api/src/types/consensus/light_client/finality_update.rs LightClientFinalityUpdate", "crates/ethportal-api/src/types/consensus/light_client/optimistic_update.rs LightClientOptimisticUpdate", "crates/ethportal-api/src/types/consensus/light_client/header.rs LightClientHeader", "crates/ethportal-api/src/types/consensus/light_client/store.rs LightClientStore", "crates/ethportal-api/src/types/consensus/signature.rs BlsSignature", "crates/ethportal-api/src/types/consensus/pubkey.rs PubKey", "crates/ethereum-rpc-client/src/consensus/rpc_types.rs VersionedDataResult", "crates/ethereum-rpc-client/src/consensus/mod.rs request_list_no_fallback"]}
{"id": "C106", "title": "Pruning computed with doubles keeps the store within its capacity", "statement": "The numbers the pruning strategy computes with floating point arithmetic, every operation of which gives the nearest double (the even one of two), are right: the target is 95 percent of the capacity to the nearest byte; of a store above its capacity at least one entry is removed, no more than the limit, and about as many entries are kept as fit in the target. So a store stays within its capacity after every history of insertions, deletions, restarts and kills, and its radius is the distance of a farthest entry after it was pruned. The limit is never zero and follows the speed of the pruning statements: a fifth more after a fast one, a fifth less after a slow one.", "quantifier": "every quotient that is rounded, every capacity, number, size and extra size of entries, every history of a store, every sequence of fast and slow statements", "why_tests_cant": "Rounding errors depend on the operands: that no capacity and no number and size of entries makes the estimate one too many or zero cannot be seen from samples.", "anchors": ["crates/storage/src/versioned/id_indexed_v1/pruning_strategy.rs PruningStrategy", "crates/storage/src/versioned/usage_stats.rs UsageStats", "crates/storage/src/versioned/id_indexed_v1/store.rs IdIndexedV1Store"]}
{"id": "C107", "title": "JSON of beacon blocks means what it says", "statement": "A JSON document is read as the signed beacon block of a fork exactly if it has the fields of that fork with values that stand for the values of the block, whatever the order of the fields; a document of an unknown fork is read as a block of the one fork whose fields it has; what is written is read back; an answer of a provider gives the block in its data. No document makes the reader abort. Public keys and signatures are taken only with their right lengths.", "quantifier": "every document, every fork, every block, every order of the fields, every behaviour of the libraries on unusual forms of numbers and bytes", "why_tests_cant": "A block is a tree of some thirty kinds of structures with lists, bit lists, quoted numbers and several notations for bytes; tests read a few blocks of each fork, and cannot show that no document is read as another block or as a block of another fork.", "anchors": ["crates/ethportal-api/src/types/consensus/beacon_block.rs SignedBeaconBlock BeaconBlock", "crates/ethportal-api/src/types/consensus/body.rs BeaconBlockBody", "crates/ethportal-api/src/types/consensus/execution_payload.rs ExecutionPayload", "crates/ethportal-api/src/types/consensus/serde.rs", "crates/ethportal-api/src/types/consensus/kzg_commitment.rs KzgCommitment", "crates/ethereum-rpc-client/src/consensus/mod.rs ConsensusApi::get_beacon_block"]}
{"id": "C108", "title": "JSON of beacon states means what it says", "statement": "A JSON document is read as the beacon state of a fork exactly if it has the fields of that fork with values that stand for the values of the state, whatever the order of the fields; an answer of a provider gives the state in its data. A document of an unknown fork is read as a state of the fork it stands for. What is written is read back. No document makes the reader abort. Public keys are taken only with their right length.", "quantifier": "every document, every fork, every state, every order of the fields, every behaviour of the libraries on unusual forms of numbers and bytes", "why_tests_cant": "A state has up to 37 fields with hundreds of thousands of entries in lists, and four forks with nearly the same fields; tests read one state of each fork, with the reader of that fork.", "anchors": ["crates/ethportal-api/src/types/consensus/beacon_state.rs BeaconState Fork Validator", "crates/ethportal-api/src/types/consensus/participation_flags.rs ParticipationFlags", "crates/ethportal-api/src/types/consensus/execution_payload.rs ExecutionPayloadHeader", "crates/ethportal-api/src/types/consensus/historical_summaries.rs HistoricalSummary", "crates/ethportal-api/src/types/consensus/pending_balance_deposit.rs PendingDeposit", "crates/ethereum-rpc-client/src/consensus/mod.rs ConsensusApi::get_beacon_state"]}
{"id": "C109", "title": "The stand-alone light client over HTTP", "statement": "A request of the stand-alone light client asks one URL of its server and gives a value exactly if the answer is a JSON document that stands for it. A start asks for the chain, the bootstrap of the trusted root, the updates, the finality update and the optimistic update, in this order and nothing after a failure; a turn of its thread asks for the newest updates and, if the next committee is unknown, for the update of the period. What the client believes goes back to the trusted root whatever the server and the data directory have; with honest committees it is on the chain. No answer ends its thread. The fallback services it is configured with are asked when the start fails.", "quantifier": "every server and every sequence of its answers, every clock, every content of the data directory, any number of turns", "why_tests_cant": "The server chooses every document; tests replay a few recorded answers and never run the thread.", "anchors": ["crates/light-client/src/main.rs main", "crates/light-client/src/consensus/rpc/nimbus_rpc.rs NimbusRpc get_bootstrap get_updates get_finality_update get_optimistic_update chain_id", "crates/light-client/src/config/checkpoints.rs RawSlotResponse Slot", "crates/light-client/src/client.rs ClientBuilder Client::start", "crates/light-client/src/node.rs Node::sync Node::advance"]}
{"id": "C110", "title": "JSON-RPC servers serve what was asked for, where it was asked for", "statement": "Servers for JSON-RPC are started exactly if what was asked for is consistent and the operating system lets them listen. Every transport then answers exactly the methods of the modules asked for on it, at the address asked for or at its default, and takes no other transport unless both are asked for at one address, where contradicting modules or origins are refused. Exactly the origins on the list of a transport are let in. The addresses that are reported are those of servers that answer. No selection of modules makes the program abort.", "quantifier": "every selection of modules for HTTP, WebSocket and IPC, every set of running subnetworks, every choice of addresses and lists of origins, every behaviour of the operating system on sockets", "why_tests_cant": "There are six modules, three transports, and addresses, origins and defaults that interact; tests start four combinations.", "anchors": ["crates/rpc/src/builder.rs RpcModuleSelection are_identical TransportRpcModuleConfig RpcModuleBuilder::build portal_methods", "crates/rpc/src/rpc_server.rs RpcServerConfig::build_ws_http RpcServerConfig::build RpcServer::start WsHttpServers::start WsHttpServerKind::build RpcServerHandle", "crates/rpc/src/cors.rs create_cors_layer", "crates/rpc/src/lib.rs launch_jsonrpc_server"]}
{"id": "C111", "title": "trin-execution does what its command line says and traces exactly the transactions asked for", "statement": "The flag for traces takes exactly none, all, and block: with a number; a last block is a number of 64 bits. Without a subcommand the command executes blocks on the database of its data directory from the position of the database to the last block given (20868946 by default), and succeeds exactly if this does; a database that is past it is an error and stays as it is. With a subcommand a state is imported or exported and no block is executed. However a run ends, the only files made or changed are traces of transactions of executed blocks that were asked for, each in its own file in the data directory; after a success all of them are there, with what their tracer wrote, if the file system allowed it. Errors with such files, and tracing itself, change nothing about the execution.", "quantifier": "every text of every flag, every chain, database, length of run, download, early commit, stop signal, crash between blocks, state of the file system and error in it", "why_tests_cant": "Traces are made inside the loop that executes, commits and stops; tests run it without traces, and do not let files fail.", "anchors": ["bin/trin-execution/src/types/block_to_trace.rs BlockToTrace::from_str should_trace create_trace_writer", "bin/trin-execution/src/execution.rs create_tracer process_range_of_blocks", "bin/trin-execution/src/evm/block_executor.rs execute_block_with_tracer", "bin/trin-execution/src/main.rs main", "bin/trin-execution/src/cli.rs TrinExecutionConfig"]}
{"id": "C112", "title": "e2ss-stats accepts exactly well-formed state snapshots and counts what is in them", "statement": "The tool that checks state snapshots ends well exactly for files that have the format: version, header, accounts in the order of their hashes, each with the code of its code hash and followed by as many storage records as it says, full except for the last, with slots in the order of their hashes. It then prints the numbers of accounts, of accounts with code, of storage records and of slots in the file. Every snapshot that the execution exports is accepted. A file without version or header is an error, every other file aborts the tool.", "quantifier": "every sequence of bytes as a file, every history of blocks whose state is exported", "why_tests_cant": "Whether a file of any bytes is refused or counted right is a claim about all files; the tool has no tests.", "anchors": ["crates/e2store/src/bin/e2ss-stats.rs main", "crates/e2store/src/e2ss.rs E2SSReader"]}
{"id": "C113", "title": "The slot clock of every network is right, and what is timed by it happens once per slot and never early", "statement": "On every network the present slot is the number of whole 12 seconds since the start of its chain, and the start of a slot is that many times 12 seconds after it. The beacon node does its work per slot when the slot has started, late only by what its own readings of the clock took, and never aborts for the clock unless it is set back. The beacon bridge waits for the first time that is 4 seconds into a slot, less than a slot; from then on it has at most one round for each slot, in order; after a round that was late it goes on with the first time to come, without making up for those missed.", "quantifier": "every network, time, slot, sequence of clock readings and of delays of the rounds", "why_tests_cant": "Tests read the clock of the machine; slots of a far future, readings on both sides of the start of a slot, and rounds that take long do not occur in them.", "anchors": ["crates/ethportal-api/src/types/network_spec.rs NetworkSpec::current_slot NetworkSpec::slot_to_timestamp NetworkSpec::slot_to_timestamp_u64", "crates/subnetworks/beacon/src/network.rs get_slot_interval", "bin/portal-bridge/src/utils.rs duration_until_next_update", "bin/portal-bridge/src/bridge/beacon.rs BeaconBridge::launch_latest"]}
{"id": "C114", "title": "The numbers that a node reports about its messages, its validations and the head of its chain are true", "statement": "The counters of messages that a node publishes, and the line in its log made from them, are for each network, direction and kind the number of messages that were sent and received, whatever happens in other networks: a response counts once and only if it answers an open request, and there are never more responses than requests, accepts sent than offers received, accepts received than offers sent. The counters of validations are the number of validations and of those with a good end. The gauges of the head show the slot of the optimistic and of the finalized header that the node knows, how far it was behind when the last slot began, and the histograms by how much each new slot was higher.", "quantifier": "every history of requests, responses (also unasked for, repeated or of a wrong kind), failures and validations in all networks of a node; every sequence of light client updates and ticks", "why_tests_cant": "Counters go wrong only over histories: an event counted twice, in a wrong network or not at all, a gauge that lags behind what it shows.", "anchors": ["crates/metrics/src/overlay.rs OverlayMetricsReporter::get_message_summary OverlayMetricsReporter::report_validation", "crates/metrics/src/labels.rs MessageLabel", "crates/metrics/src/chain_head.rs ChainHeadMetricsReporter", "crates/portalnet/src/overlay/service/manager.rs OverlayService::process_request OverlayService::process_incoming_request", "crates/validation/src/chain_head/store.rs ChainHeadStore", "crates/subnetworks/beacon/src/network.rs BeaconNetwork::new"]}
{"id": "C115", "title": "The line that a bridge prints about a content is true of all its offers", "statement": "When the last offer of a content has ended, a bridge prints one line about it, and never before or after. The line has the number of peers that accepted, of all peers that it was offered to and of failed offers, and for each reason for which a peer declined, once, the clients that declined for it, in the order of their answers, each as often as it did; it says \"none\" exactly if no peer declined. Which clients declined for which reason can be read off the line: no name that a peer gives can make it say something else. A peer is named as a known client exactly if the name that it gave is that of the client up to upper and lower case; another name is kept, and a peer without a name is told apart.", "quantifier": "every sequence in which the offers of a content end, every mixture of accept codes and failures, every number of peers, every order in which a hash map is gone through, every name that a peer gives", "why_tests_cant": "The line depends on the order in which concurrent offers end and on the order of a hash map, and the number of combinations of answers is unbounded.", "anchors": ["bin/portal-bridge/src/bridge/offer_report.rs OfferReport::update OfferReport::report OfferReport::decline_reason_summary", "crates/ethportal-api/src/types/client_type.rs ClientType", "crates/ethportal-api/src/types/ping_extensions/extensions/type_0.rs ClientInfoRadiusCapabilities::get_client_type", "crates/ethportal-api/src/types/accept_code.rs AcceptCode"]}
