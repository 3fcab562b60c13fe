{"id": "C01", "title": "Trie is a map under insert/get", "statement": "Starting from an empty trie, after any sequence of successful inserts and deletes with keys of one fixed length (the only keys the state and storage tries use), get(k) returns exactly the value most recently inserted for k and not deleted since, or None; none of these calls errors or panics.", "quantifier": "all finite histories of insert/delete over all keys of one length, all values, all queried keys", "why_tests_cant": "the shape of the trie depends on every key shared prefix; a test can only visit some histories", "anchors": ["mpt_trie/src/trie_ops.rs:insert_into_trie_rec", "mpt_trie/src/trie_ops.rs:trie_get_intern", "mpt_trie/src/trie_ops.rs:delete_intern"]}
{"id": "C02", "title": "Delete removes exactly one key and reports its value", "statement": "delete(k) returns Some(v) when k was mapped to v and None when it was absent; afterwards get(k) is None and every other key keeps its value.", "quantifier": "all tries reachable by histories over prefix-free keys, all deleted keys", "why_tests_cant": "branch collapse re-shapes an unbounded neighbourhood of the deleted key", "anchors": ["mpt_trie/src/trie_ops.rs:trie_delete", "mpt_trie/src/trie_ops.rs:delete_intern", "mpt_trie/src/trie_ops.rs:collapse_ext_node_if_needed"]}
{"id": "C03", "title": "The trie (and its root hash) depends only on its contents", "statement": "Two histories of inserts and deletes over prefix-free keys that end with the same key/value contents end with structurally equal tries, hence with the same root hash, whatever the order of operations or the keys inserted and deleted in between.", "quantifier": "all pairs of histories", "why_tests_cant": "quantifies over pairs of unbounded histories", "anchors": ["mpt_trie/src/trie_ops.rs:insert_into_trie_rec", "mpt_trie/src/trie_ops.rs:delete_intern", "mpt_trie/src/trie_hashing.rs:hash_trie"]}
{"id": "C04", "title": "Iteration yields exactly the stored entries", "statement": "items() on a trie reachable by inserts/deletes over prefix-free keys yields every stored (key, value) pair exactly once, nothing else, and in increasing lexicographic key order.", "quantifier": "all reachable tries", "why_tests_cant": "the iterator is a stack machine whose key register must be right at every depth", "anchors": ["mpt_trie/src/trie_ops.rs:PartialTrieIter", "mpt_trie/src/trie_ops.rs:advance_iter_to_next_empty_leaf_or_hash_node"]}
{"id": "C05", "title": "Variable-length keys keep map semantics", "statement": "insert/get/delete have map semantics also when one key is a proper prefix of another (the API accepts keys of any length).", "quantifier": "all tries and all pairs of keys, one a prefix of the other", "why_tests_cant": "needs all relative positions of a key end inside leaf, branch and extension nodes", "anchors": ["mpt_trie/src/trie_ops.rs:insert_into_trie_rec", "mpt_trie/src/trie_ops.rs:trie_get_intern", "mpt_trie/src/trie_ops.rs:delete_intern"]}
{"id": "C06", "title": "Partial tries behave like the full trie", "statement": "Let p be obtained from a full trie t by replacing sub-tries by Hash nodes holding their hashes. Under the default strategy for orphaned hash nodes (Reject), if an insert or a delete succeeds on p then the same operation succeeds on t and the two results have the same root hash, and get on p never returns a value different from the one t returns.", "quantifier": "all full tries, all choices of hashed-out sub-tries, all operations, and all sequences of them", "why_tests_cant": "number of (trie, mask, operation) combinations is unbounded", "anchors": ["mpt_trie/src/trie_ops.rs:insert_into_trie_rec", "mpt_trie/src/trie_ops.rs:delete_intern", "mpt_trie/src/partial_trie.rs:OnOrphanedHashNode"]}
{"id": "C07", "title": "Sub-trie extraction preserves the root hash and the requested data", "statement": "create_trie_subset(t, keys) has the same root hash as t, and reading any key of `keys` in it gives the same answer as in t.", "quantifier": "all tries, all key sets", "why_tests_cant": "depends on which nodes are small enough to be inlined and on every key path", "anchors": ["mpt_trie/src/trie_subsets.rs:create_trie_subset", "mpt_trie/src/trie_subsets.rs:mark_nodes_that_are_needed"]}
{"id": "C08", "title": "Extracting several sub-tries equals extracting each separately", "statement": "create_trie_subsets(t, [ks1, ..., ksn]) returns the same tries as calling create_trie_subset(t, ksi) for each i.", "quantifier": "all tries, all lists of key sets", "why_tests_cant": "state is re-used between the extractions", "anchors": ["mpt_trie/src/trie_subsets.rs:create_trie_subsets", "mpt_trie/src/trie_subsets.rs:reset_tracked_trie_state"]}
{"id": "C09", "title": "The root hash commits to the contents", "statement": "Two tries with the same root hash hold the same entries, unless two different byte strings that were hashed while computing the two roots collide under keccak (or a hashed string is an exact fix-point of the inlining boundary): no ambiguity comes from the node encoding itself.", "quantifier": "all pairs of tries", "why_tests_cant": "injectivity of an encoding ranges over all pairs of inputs", "anchors": ["mpt_trie/src/trie_hashing.rs:rlp_encode_and_hash_node", "mpt_trie/src/nibbles.rs:to_hex_prefix_encoding"]}
{"id": "C10", "title": "Cached hashes are never stale", "statement": "For HashedPartialTrie, hash() always equals the hash recomputed from the current contents, after any interleaving of insert, extend, delete, hash, clone and sub-trie extraction on any number of handles.", "quantifier": "all interleavings of operations over all live handles", "why_tests_cant": "interleavings over aliased handles are unbounded", "anchors": ["mpt_trie/src/partial_trie.rs:HashedPartialTrie", "mpt_trie/src/partial_trie.rs:hash_intern"]}
{"id": "C11", "title": "Packed nibble strings behave as sequences of nibbles", "statement": "Every operation of Nibbles (push/pop front/back, merge, split, truncate, range, reverse, comparison, first difference) on the packed 320-bit representation gives the packed representation of the result of the same operation on the sequence of nibbles.", "quantifier": "all nibble strings up to the capacity, all arguments", "why_tests_cant": "2^320 packed states; shifts and masks at every count", "anchors": ["mpt_trie/src/nibbles.rs:Nibbles"]}
{"id": "C12", "title": "Hex-prefix encoding is unambiguous", "statement": "to_hex_prefix_encoding never maps two different (path, is_leaf) pairs to the same bytes, and from_hex_prefix_encoding inverts it: an extension path is returned exactly, a leaf path followed by the terminator byte 0x10 (nibbles 1,0).", "quantifier": "all nibble strings up to 64 nibbles, both node kinds", "why_tests_cant": "ranges over all paths", "anchors": ["mpt_trie/src/nibbles.rs:to_hex_prefix_encoding", "mpt_trie/src/nibbles.rs:from_hex_prefix_encoding"]}
{"id": "C13", "title": "A query path follows the key and stays in the trie", "statement": "path_for_query lists exactly the nodes met by a lookup of the key from the root, in order, and the listed key pieces concatenate to a prefix of the key as long as the lookup agrees with the trie.", "quantifier": "all tries, all keys", "why_tests_cant": "unbounded depth", "anchors": ["mpt_trie/src/special_query.rs:path_for_query", "mpt_trie/src/special_query.rs:TriePathIter"]}
{"id": "C14", "title": "Collapse reporting names the right surviving key", "statement": "When deleting a key collapses a branch, the reported remaining key is the path of the sibling whose node absorbed the branch, and nothing is reported when no branch collapsed.", "quantifier": "all tries, all deleted keys", "why_tests_cant": "depends on the shape around the deleted key", "anchors": ["evm_arithmetization/src/tries.rs:delete_node_and_report_remaining_key_if_branch_collapsed", "evm_arithmetization/src/tries.rs:node_deletion_resulted_in_a_branch_collapse"]}
{"id": "C15", "title": "Typed trie keys are injective", "statement": "MptKey from an address/hash/slot, and the transaction-index key (nibbles of RLP(index)), are injective, at most 64 nibbles, and transaction keys are prefix-free so that the transaction and receipt tries have map semantics.", "quantifier": "all hashes, all indices", "why_tests_cant": "all 2^64 indices", "anchors": ["evm_arithmetization/src/tries.rs:MptKey"]}
{"id": "C16", "title": "Sparse Merkle tree is a map", "statement": "After any sequence of set calls (value 0 meaning removal) the SMT get(k) returns the last value set for k.", "quantifier": "all histories over all 256-bit keys and values", "why_tests_cant": "tree shape depends on all common key prefixes", "anchors": ["smt_trie/src/smt.rs:Smt::set", "smt_trie/src/smt.rs:Smt::get"]}
{"id": "C17", "title": "SMT lookups of absent keys return zero", "statement": "get(k) on a tree that does not contain k returns 0 and does not panic, as documented.", "quantifier": "all reachable trees and absent keys", "why_tests_cant": "needs every way in which a path can end", "anchors": ["smt_trie/src/smt.rs:Smt::get"]}
{"id": "C18", "title": "SMT root depends only on contents", "statement": "Two histories of set/delete ending in the same map end with the same root.", "quantifier": "all pairs of histories", "why_tests_cant": "pairs of unbounded histories", "anchors": ["smt_trie/src/smt.rs:Smt::set", "smt_trie/src/smt.rs:Smt::delete"]}
{"id": "C19", "title": "SMT key path is a faithful encoding of the key", "statement": "split() of a key yields 256 bits that determine the key, join() re-assembles a key from the consumed path bits and the remaining key, and remove_key_bits is its inverse.", "quantifier": "all 4x64-bit keys, all path lengths", "why_tests_cant": "2^256 keys times 256 lengths", "anchors": ["smt_trie/src/keys.rs:Key", "smt_trie/src/utils.rs"]}
{"id": "C20", "title": "SMT bit strings behave as sequences of bits", "statement": "push, pop, concatenation, common prefix and indexing on Bits behave as on the sequence of bits.", "quantifier": "all bit strings up to 256 bits", "why_tests_cant": "2^256 states", "anchors": ["smt_trie/src/bits.rs:Bits"]}
{"id": "C21", "title": "Contract byte code padding is unambiguous", "statement": "poseidon padding maps different byte strings to different padded strings, always to a positive multiple of 56 bytes.", "quantifier": "all byte strings", "why_tests_cant": "unbounded length", "anchors": ["smt_trie/src/code.rs:poseidon_pad_byte_vec"]}
{"id": "C22", "title": "Serialized SMT re-hashes to its root", "statement": "hash_serialize(serialize(t)) equals t.root, also when subtrees were pruned to the requested keys.", "quantifier": "all trees, all key subsets", "why_tests_cant": "unbounded trees", "anchors": ["smt_trie/src/smt.rs:Smt::serialize_and_prune", "smt_trie/src/smt.rs:hash_serialize"]}
{"id": "C23", "title": "Batching neither loses, duplicates nor reorders transactions", "statement": "The batches made from a block contain exactly the block's transactions in order; there are at least two batches, and no batch is larger than requested unless two batches are forced.", "quantifier": "all transaction lists, all batch size hints", "why_tests_cant": "all lengths and hints, incl. boundaries", "anchors": ["trace_decoder/src/core.rs:batch"]}
{"id": "C24", "title": "Gas and transaction counters chain across batches", "statement": "For consecutive generation inputs of a block, the transaction number and gas used before batch i+1 equal those after batch i; the first starts at 0 and the last ends at the block totals.", "quantifier": "all blocks, all batch splits", "why_tests_cant": "all splits and gas values", "anchors": ["trace_decoder/src/core.rs:entrypoint", "trace_decoder/src/core.rs:middle"]}
{"id": "C25", "title": "Withdrawals are applied once, after all transactions", "statement": "Withdrawals appear in exactly one generation input of a block, the last one.", "quantifier": "all blocks, all batch splits", "why_tests_cant": "all splits", "anchors": ["trace_decoder/src/core.rs:middle"]}
{"id": "C26", "title": "State trie and storage tries stay linked", "statement": "After any sequence of world operations, the storage root recorded in an account equals the root of that account's storage trie.", "quantifier": "all operation sequences, all addresses", "why_tests_cant": "unbounded histories", "anchors": ["evm_arithmetization/src/world.rs:Type1World"]}
{"id": "C27", "title": "Witness decoding round-trips", "statement": "Compact key decoding inverts key encoding, and executing the instruction stream emitted for a trie re-builds that trie.", "quantifier": "all keys, all tries", "why_tests_cant": "unbounded streams", "anchors": ["trace_decoder/src/wire.rs:decode_key", "trace_decoder/src/type1.rs:execute"]}
{"id": "C28", "title": "SMT witness folding round-trips", "statement": "The preorder instruction stream of a binary tree folds back to that tree and consumes every instruction; trailing or missing instructions are reported.", "quantifier": "all trees, all instruction lists", "why_tests_cant": "unbounded streams", "anchors": ["trace_decoder/src/type2.rs:fold", "trace_decoder/src/type2.rs:fold1"]}
{"id": "C29", "title": "Contract code is always found under its own hash", "statement": "Every entry of the code table maps the keccak of a byte string to that byte string, after any sequence of extensions, and lookup of an absent hash is an error, not other code.", "quantifier": "all insertion sequences", "why_tests_cant": "unbounded histories", "anchors": ["trace_decoder/src/core.rs:Hash2Code"]}
{"id": "C30", "title": "Block intervals enumerate exactly the requested blocks", "statement": "An interval given by two block ids (numbers or hashes) is accepted exactly when the first block is not after the last; its stream yields every block from the first to the last, inclusive, once in ascending order and flags exactly the last one. A followed interval yields the blocks from its start on, none skipped or repeated, as the chain grows.", "quantifier": "all pairs of block ids, all chains, all growth histories of the chain head", "why_tests_cant": "all 2^128 pairs, boundaries incl. u64::MAX, all histories of the chain head", "anchors": ["zero/src/block_interval.rs:BlockInterval"]}
{"id": "C31", "title": "Circuit size ranges parse to the range they denote", "statement": "A range string is accepted exactly when it is of the documented form start..end, with start and end decimal usize values, and is then read as the range it denotes; parsing the displayed form of a range gives the range back.", "quantifier": "all strings, all ranges", "why_tests_cant": "all strings", "anchors": ["zero/src/parsing.rs:parse_range_exclusive", "zero/src/prover_state/circuit.rs:CircuitSize"]}
{"id": "C32", "title": "Retry makes a bounded number of attempts and returns the first success", "statement": "With max_retries = n an operation is attempted at most n+1 times; the first success is returned immediately, and after n+1 failures the last error is returned.", "quantifier": "all n, all outcome sequences", "why_tests_cant": "all outcome sequences", "anchors": ["zero/src/rpc/retry.rs"]}
{"id": "C33", "title": "Proof aggregation does not depend on completion order", "statement": "Whatever order segment and batch proofs complete in, the aggregated proof combines them in index order.", "quantifier": "all schedules (permutations of completion)", "why_tests_cant": "factorially many schedules", "anchors": ["zero/src/prover.rs:BlockProverInput::prove"]}
{"id": "C34", "title": "Block proofs chain to their predecessor", "statement": "In a sequence of blocks, the proof of each block is built on the proof of the previous one, and each block's proof (or a batch boundary's) is emitted once.", "quantifier": "all interval lengths, batch sizes, schedules", "why_tests_cant": "all schedules", "anchors": ["zero/src/prover.rs:prove"]}
{"id": "C35", "title": "ADD, SUB, LT, GT constraints are sound", "statement": "Any table row whose limbs are 16-bit and which satisfies the constraints for ADD/SUB/LT/GT carries the EVM result: out = (a\u00b1b) mod 2^256, resp. the comparison bit.", "quantifier": "all field-valued rows (2^64 per cell)", "why_tests_cant": "an adversarial prover may choose any row", "anchors": ["evm_arithmetization/src/arithmetic/addcy.rs:eval_packed_generic_addcy"]}
{"id": "C36", "title": "MUL constraints are sound", "statement": "Any 16-bit-limb row satisfying the MUL constraints has out = a*b mod 2^256.", "quantifier": "all field-valued rows", "why_tests_cant": "adversarial rows", "anchors": ["evm_arithmetization/src/arithmetic/mul.rs:eval_packed_generic_mul"]}
{"id": "C37", "title": "DIV and MOD constraints are sound", "statement": "Any pair of rows satisfying the DIV (MOD) constraints has out = a / b (a mod b), and out = 0 when b = 0.", "quantifier": "all field-valued row pairs", "why_tests_cant": "adversarial rows", "anchors": ["evm_arithmetization/src/arithmetic/divmod.rs:eval_packed_divmod_helper", "evm_arithmetization/src/arithmetic/modular.rs:modular_constr_poly"]}
{"id": "C38", "title": "ADDMOD, MULMOD, SUBMOD (and FP254) constraints are sound", "statement": "Any pair of rows satisfying the constraints has out = (a op b) mod m, and 0 when m = 0.", "quantifier": "all field-valued row pairs", "why_tests_cant": "adversarial rows", "anchors": ["evm_arithmetization/src/arithmetic/modular.rs:eval_packed", "evm_arithmetization/src/arithmetic/modular.rs:submod_constr_poly"]}
{"id": "C39", "title": "BYTE constraints are sound", "statement": "Any 16-bit-limb row satisfying the BYTE constraints has out = i-th most significant byte of x for i < 32 and 0 otherwise.", "quantifier": "all field-valued rows", "why_tests_cant": "adversarial rows", "anchors": ["evm_arithmetization/src/arithmetic/byte.rs:eval_packed"]}
{"id": "C40", "title": "SHL and SHR constraints are sound", "statement": "Given the third register holds 2^shift (0 for shift >= 256), rows satisfying the SHL/SHR constraints have out = x << shift mod 2^256, x >> shift.", "quantifier": "all field-valued row pairs", "why_tests_cant": "adversarial rows", "anchors": ["evm_arithmetization/src/arithmetic/shift.rs:eval_packed_generic"]}
{"id": "C41", "title": "AND, OR, XOR constraints are sound", "statement": "Any row satisfying the logic table constraints has result = bitwise and/or/xor of its inputs.", "quantifier": "all field-valued rows", "why_tests_cant": "adversarial rows", "anchors": ["evm_arithmetization/src/logic.rs:eval_packed_generic"]}
{"id": "C42", "title": "Memory table reads return the last write", "statement": "In any memory table satisfying the constraints and range checks, each read at an address returns the value of the latest earlier operation at the address, or zero if there is none (outside the pre-initialised segments), whatever rows the prover adds.", "quantifier": "all tables of any height up to the field bound", "why_tests_cant": "adversarial tables of unbounded height", "anchors": ["evm_arithmetization/src/memory/memory_stark.rs:eval_packed_generic"]}
{"id": "C43", "title": "Final memory values are handed over to the next segment", "statement": "In any satisfying memory table, the last value of every live non-stale address that is non-zero or in a pre-initialised segment is selected for propagation to the next segment.", "quantifier": "all satisfying tables", "why_tests_cant": "adversarial tables", "anchors": ["evm_arithmetization/src/memory/memory_stark.rs:eval_packed_generic"]}
{"id": "C44", "title": "The peephole optimizer preserves behaviour", "statement": "For every kernel program fragment, the optimized instruction sequence transforms every stack on which the original runs without underflow into the same stack.", "quantifier": "all programs, all stacks", "why_tests_cant": "all instruction sequences", "anchors": ["evm_arithmetization/src/cpu/kernel/optimizer.rs:optimize_asm"]}
{"id": "C45", "title": "The peephole optimizer terminates and never grows code", "statement": "optimize_asm terminates on every program and the result is at most as long as its input.", "quantifier": "all programs", "why_tests_cant": "unbounded programs; a non-terminating rewrite shows up only on particular inputs", "anchors": ["evm_arithmetization/src/cpu/kernel/optimizer.rs:optimize_asm", "evm_arithmetization/src/cpu/kernel/utils.rs:replace_windows"]}
{"id": "C46", "title": "%stack macros compile to code realising the requested rearrangement", "statement": "The instruction sequence emitted for %stack (a,b,..) -> (..) turns every stack matching the left side into the right side and leaves deeper entries alone.", "quantifier": "all patterns, all stacks", "why_tests_cant": "search result differs per pattern", "anchors": ["evm_arithmetization/src/cpu/kernel/stack/stack_manipulation.rs:shortest_path", "evm_arithmetization/src/cpu/kernel/stack/permutations.rs:get_stack_ops_for_perm"]}
{"id": "C47", "title": "Failing trie operations return errors, never panic", "statement": "A delete that must be refused because it would merge an extension with a hash node returns the documented error; deletes never panic for keys of at most 64 nibbles, and fail only when a hash node is involved.", "quantifier": "all partial tries, all keys", "why_tests_cant": "the error path builds its own key and depends on depth", "anchors": ["mpt_trie/src/trie_ops.rs:collapse_ext_node_if_needed"]}
{"id": "C48", "title": "Collapsing onto an orphaned hash node keeps the full trie's root", "statement": "With the CollapseToExtension strategy, a delete that succeeds on a partial trie gives the same root hash as the same delete on the full trie.", "quantifier": "all full tries, all choices of hashed-out sub-tries, all deletes", "why_tests_cant": "depends on what kind of node the hash hides, which the partial trie does not know", "anchors": ["mpt_trie/src/trie_ops.rs:try_collapse_if_branch", "mpt_trie/src/partial_trie.rs:OnOrphanedHashNode"]}
{"id": "C49", "title": "The root hash is Ethereum's root hash of the map", "statement": "The root hash of the trie reached by any history of inserts and deletes is the hash the Yellow Paper (appendix D) defines for the resulting key/value map: c(J,i), n(J,i), TRIE(J) with RLP and hex-prefix.", "quantifier": "all histories, all hash functions", "why_tests_cant": "interoperability: every shape of map, embedding of short nodes, keys of every length", "anchors": ["mpt_trie/src/trie_hashing.rs:hash_trie", "mpt_trie/src/trie_hashing.rs:EncodedNode"]}
{"id": "C50", "title": "Nibbles conversions are lossless", "statement": "Keys made from bytes, 256-bit hashes or integers convert back to the same bytes, hash or integer; creation fails exactly for empty or over-long byte strings; printing a key and parsing the text gives the same key including leading zeros.", "quantifier": "all byte strings, hashes, integers and keys", "why_tests_cant": "leading zeros, odd lengths and boundary sizes", "anchors": ["mpt_trie/src/nibbles.rs:Nibbles::from_bytes_be", "mpt_trie/src/nibbles.rs:FromStr for Nibbles", "mpt_trie/src/nibbles.rs:Nibbles::as_hex_str"]}
{"id": "C51", "title": "Pre-execution hook runs once per block", "statement": "The update that the network prescribes before the first transaction of a block (beacon roots contract on Ethereum, scalable contract on CDK) is applied exactly once for each decoded block.", "quantifier": "all blocks, all batch sizes, all hooks", "why_tests_cant": "a block with no transactions, and batches that contain only padding, take a different path", "anchors": ["trace_decoder/src/core.rs:middle", "trace_decoder/src/core.rs:do_pre_execution"]}
{"id": "C52", "title": "State roots chain through a block", "statement": "The world handed to the first proof input has the state root of the block's pre-state; the world, transaction trie and receipt trie handed to every later input have exactly the roots the previous input ends with.", "quantifier": "all blocks, all batch sizes, all networks", "why_tests_cant": "masking must preserve the root of every partial trie, after any history of updates", "anchors": ["trace_decoder/src/core.rs:middle", "trace_decoder/src/core.rs:entrypoint"]}
{"id": "C53", "title": "Pre-execution hook writes what the network specifies", "statement": "Before the first transaction: on Ethereum, slot timestamp % 8191 of the beacon roots contract holds the timestamp and slot timestamp % 8191 + 8191 the parent beacon root (EIP-4788); on CDK the scalable contract's slots hold the block number, the larger of its old timestamp and the block's, and the state root before the block. Nothing else changes.", "quantifier": "all blocks, all states", "why_tests_cant": "256-bit timestamps and roots; zero values delete; the order of reads and writes matters", "anchors": ["trace_decoder/src/core.rs:do_beacon_hook", "trace_decoder/src/core.rs:do_scalable_hook"]}
{"id": "C54", "title": "Decoded post-state is the fold of the traces", "statement": "The state whose root the last proof input ends with is the initial state changed by each trace of each transaction in order and then credited with the withdrawals: fields set by a trace, last write per slot (zero removes), self-destructed accounts gone, accounts first touched by a failed transaction not created; no other account or slot changes, and the batch size does not matter.", "quantifier": "all blocks, all traces, all initial partial tries, all batch sizes", "why_tests_cant": "histories of interacting updates on nested partial tries", "anchors": ["trace_decoder/src/core.rs:middle", "evm_arithmetization/src/world.rs:Type1World"]}
{"id": "C55", "title": "Proof inputs contain everything their traces touch", "statement": "In the partial tries of each proof input, every account mentioned by a trace of the batch (or credited by a withdrawal) and every slot its traces read or write can be looked up, with the same answer as in the full state before the batch; none of them is hidden behind a hash.", "quantifier": "all blocks, all batches, all states, all traces", "why_tests_cant": "pruning is applied to nested partial tries after arbitrary updates", "anchors": ["trace_decoder/src/core.rs:middle", "evm_arithmetization/src/world.rs:Type1World::mask", "evm_arithmetization/src/world.rs:Type1World::mask_storage"]}
{"id": "C56", "title": "Sparse Merkle tree with hashed-out parts agrees with the full tree", "statement": "If some subtrees of a sparse Merkle tree are known only by hash, every sequence of updates and lookups that succeeds on the partial tree gives the same root and the same answers as on the full tree.", "quantifier": "all trees, all choices of hidden subtrees, all operation sequences", "why_tests_cant": "which nodes are read depends on the keys and on the shape after each update", "anchors": ["smt_trie/src/smt.rs:Smt::set", "smt_trie/src/smt.rs:Smt::get", "smt_trie/src/smt.rs:Smt::set_hash"]}
{"id": "C57", "title": "Sparse Merkle tree rebuilt from a witness has the original root", "statement": "Building a tree from the hashes of hidden subtrees at their bit paths and the entries outside them gives the root of the full tree, and updates of entries outside the hidden parts keep the two roots equal.", "quantifier": "all trees, all witnesses, all update sequences", "why_tests_cant": "entries and hashes interleave arbitrarily; a hash hides a subtree of any size", "anchors": ["smt_trie/src/smt.rs:Smt::set_hash", "evm_arithmetization/src/world.rs:Type2World::as_smt"]}
{"id": "C58", "title": "Pruned sparse Merkle tree answers the requested keys", "statement": "The serialization of a tree pruned to a set of keys still determines, for each of these keys, its value or its absence.", "quantifier": "all histories, all sets of keys", "why_tests_cant": "depends on the shape of the whole tree along each path", "anchors": ["smt_trie/src/smt.rs:Smt::serialize_and_prune", "smt_trie/src/smt.rs:serialize"]}
{"id": "C59", "title": "State keys of the sparse Merkle tree are distinct", "statement": "Different (kind of entry, address, storage slot) have different keys in the state tree, unless the hash collides on the inputs at hand.", "quantifier": "all addresses, all slots, all kinds of entry", "why_tests_cant": "a limb left out of the packing collides only for special pairs of addresses or slots", "anchors": ["smt_trie/src/keys.rs:key_balance", "smt_trie/src/keys.rs:key_nonce", "smt_trie/src/keys.rs:key_code", "smt_trie/src/keys.rs:key_storage", "smt_trie/src/keys.rs:key_code_length"]}
{"id": "C60", "title": "Every encoded witness is parsed back", "statement": "For every list of witness instructions (with any byte strings, keys, hashes, masks and optional fields), the bytes that encode it are parsed back into exactly that list; the empty input, an unknown version byte, an input without instructions and unknown opcodes are rejected.", "quantifier": "all instruction lists, all byte strings", "why_tests_cant": "byte streams of any length with nested variable-length fields; nibble keys of both parities", "anchors": ["trace_decoder/src/wire.rs:parse", "trace_decoder/src/wire.rs:Instruction", "trace_decoder/src/wire.rs:Key"]}
{"id": "C61", "title": "SMT world is a map of account fields with a content-determined root", "statement": "In the world used for Polygon CDK, every sequence of updates changes exactly the fields it names (balance, nonce, code hash and length, storage slots; destroying an account clears all of them) and reads return the last write; the root is the Merkle root of the fields held and the hidden parts, so it is equal to the root of the full state updated the same way.", "quantifier": "all update sequences, all initial worlds, all witnesses with hidden subtrees", "why_tests_cant": "the root depends on all fields of all accounts and on the order of insertion into the tree", "anchors": ["evm_arithmetization/src/world.rs:Type2World", "evm_arithmetization/src/world.rs:Type2World::as_smt"]}
{"id": "C62", "title": "A block proof covers every segment of the block", "statement": "If proving a block succeeds, the resulting block proof covers every segment of every transaction batch of the block: the failure of one of the proving tasks is reported as an error and never drops the segment from the aggregate.", "quantifier": "all blocks, all ways of splitting batches into segments, all schedules, all subsets of failing tasks", "why_tests_cant": "failures of single tasks at every point of every schedule", "anchors": ["zero/src/prover.rs:BlockProverInput::prove", "zero/src/ops.rs:SegmentProof", "zero/src/ops.rs:SegmentAggProof", "zero/src/ops.rs:BatchAggProof"]}
{"id": "C63", "title": "Continuing from a previous proof leaves no gap", "statement": "A run is accepted only if it starts right after the block of the previous proof and after the checkpoint (or, without a previous proof, right after the checkpoint), and then its proofs cover the blocks of both runs, each on top of the one before, with consecutive numbers.", "quantifier": "all checkpoints, heights, starts; all pairs of runs", "why_tests_cant": "all numbers, composition of arbitrary runs", "anchors": ["zero/src/pre_checks.rs:check_previous_proof_and_checkpoint", "zero/src/bin/leader/client.rs:client_main"]}
{"id": "C64", "title": "The verifier reports success only for valid proofs", "statement": "The verifier program ends successfully only if every proof in the input verifies.", "quantifier": "all lists of proofs", "why_tests_cant": "all lists with a failing proof anywhere", "anchors": ["zero/src/bin/verifier.rs:main"]}
{"id": "C65", "title": "Configurations that build different circuits use different files", "statement": "The digest of a circuit configuration, and the names of the files that hold its circuits, differ for configurations that build different circuits; files of different kinds never share a name.", "quantifier": "all circuit sizes, all kernels, all kinds of file", "why_tests_cant": "all numbers; names are concatenations without escaping", "anchors": ["zero/src/prover_state/circuit.rs:CircuitConfig::get_configuration_digest", "zero/src/prover_state/persistence.rs:DiskResource::path"]}
{"id": "C66", "title": "Circuits loaded from the cache are those of the configuration", "statement": "After any sequence of runs, crashes and deletions, a prover or verifier uses exactly the circuits its own configuration would generate.", "quantifier": "all histories of runs and crashes at any byte of any write", "why_tests_cant": "crash points and histories are unbounded", "anchors": ["zero/src/prover_state/mod.rs:ProverStateManager::initialize", "zero/src/prover_state/mod.rs:ProverStateManager::verifier", "zero/src/prover_state/persistence.rs:persist_all_to_disk"]}
{"id": "C67", "title": "An initialized prover finds its table circuits", "statement": "After any sequence of runs, crashes and deletions, a prover whose initialization succeeds can load the table circuits of every configured size.", "quantifier": "all histories of runs and crashes", "why_tests_cant": "crash points and histories are unbounded", "anchors": ["zero/src/prover_state/mod.rs:ProverStateManager::load_table_circuits", "zero/src/prover_state/persistence.rs:prover_to_disk"]}
{"id": "C68", "title": "Previous block hashes are complete and in order", "statement": "For every block number, the array of previous block hashes holds the hash of the k-th previous block at position 256 - k and zero where there is no such block, whichever of the two ways of asking the node is used.", "quantifier": "all block numbers, all chains", "why_tests_cant": "parity and the beginning of the chain change which blocks are asked for", "anchors": ["zero/src/rpc/mod.rs:fetch_previous_block_hashes", "zero/src/rpc/mod.rs:fetch_previous_block_hashes_from_block", "zero/src/rpc/mod.rs:fetch_previous_block_hashes_smart_contract"]}
{"id": "C69", "title": "The block cache does not change answers", "statement": "A block obtained through the caching provider is the block the node would return for the same request.", "quantifier": "all sequences of requests", "why_tests_cant": "depends on the history of requests", "anchors": ["zero/src/provider.rs:CachedProvider::get_block"]}
{"id": "C70", "title": "Exported arithmetic operations have the EVM's result", "statement": "Every operation (opcode, operands, result) that an accepted arithmetic table offers to the CPU table through the cross-table lookup has the result the EVM defines for this opcode.", "quantifier": "all accepted tables of any height, all rows", "why_tests_cant": "an adversarial prover chooses all cells; tests only use generated rows", "anchors": ["evm_arithmetization/src/arithmetic/arithmetic_stark.rs:ctl_arithmetic_rows", "evm_arithmetization/src/arithmetic/arithmetic_stark.rs:eval_packed_generic"]}
{"id": "C71", "title": "Generated logic tables are accepted", "statement": "For every list of AND, OR and XOR operations on 256-bit operands, the trace generated for the logic table satisfies its constraints and offers each operation with its correct result to the other tables.", "quantifier": "all lists of operations, all operands, all minimum heights", "why_tests_cant": "unboundedly many operations and 2^512 operand pairs", "anchors": ["evm_arithmetization/src/logic.rs:LogicStark::generate_trace", "evm_arithmetization/src/logic.rs:Operation::into_row", "evm_arithmetization/src/logic.rs:eval_packed_generic"]}
{"id": "C72", "title": "Assembling is deterministic", "statement": "Assembling the same kernel source gives the same code in every process, so that provers and verifiers started separately agree on the kernel and its hash.", "quantifier": "all stack manipulation patterns, all hash map iteration orders of the processes", "why_tests_cant": "the iteration order of a hash map differs between processes; a test sees one order at a time", "anchors": ["evm_arithmetization/src/cpu/kernel/stack/permutations.rs:combine_cycles", "evm_arithmetization/src/cpu/kernel/stack/stack_manipulation.rs:shortest_path", "evm_arithmetization/src/cpu/kernel/assembler.rs:assemble"]}
{"id": "C73", "title": "An aggregated segment proof is one uninterrupted execution", "statement": "If a segment aggregation proof is accepted, there is a list of proven segments of one batch of transactions such that each takes over the registers and the memory where its predecessor left them, all have the same trie roots, block metadata, block hashes, extra data and burn address, and the proof's public values are those of the two ends.", "quantifier": "all accepted proofs, aggregation trees of any shape and size, with and without dummies, adversarial provers", "why_tests_cant": "aggregation trees are unbounded and an adversary chooses every target that no constraint fixes; tests only run honest provers", "anchors": ["evm_arithmetization/src/fixed_recursive_verifier.rs:create_segment_aggregation_circuit", "evm_arithmetization/src/fixed_recursive_verifier.rs:add_segment_agg_child", "evm_arithmetization/src/proof.rs:BlockMetadataTarget::conditional_assert_eq"]}
{"id": "C74", "title": "An aggregated batch proof is a sequence of complete, linked batches", "statement": "If a batch aggregation proof is accepted, there is a list of batches of one block, each a complete run of the kernel from its initial memory and entry point to its exit point, each starting from the tries, the transaction number and the gas at which its predecessor ended, with the same metadata, block hashes and checkpoint, and the proof's public values are those of the two ends.", "quantifier": "all accepted proofs, aggregation trees of any shape and size, adversarial provers", "why_tests_cant": "as for C73", "anchors": ["evm_arithmetization/src/fixed_recursive_verifier.rs:create_batch_aggregation_circuit", "evm_arithmetization/src/fixed_recursive_verifier.rs:connect_initial_final_segment", "evm_arithmetization/src/fixed_recursive_verifier.rs:connect_extra_public_values"]}
{"id": "C75", "title": "A block proof is a chain of whole blocks from the checkpoint", "statement": "If a block proof is accepted, there is a list of blocks, from the checkpoint state root the proof shows to the state it shows, each starting with empty transaction and receipt tries and using the gas its header states, with consecutive numbers, timestamps that do not decrease, matching state roots, shifted windows of 256 previous hashes, one chain id and one checkpoint.", "quantifier": "all accepted proofs, chains of any length, adversarial provers", "why_tests_cant": "chains are unbounded and the adversary chooses the parent's public values", "anchors": ["evm_arithmetization/src/fixed_recursive_verifier.rs:create_block_circuit", "evm_arithmetization/src/fixed_recursive_verifier.rs:connect_block_proof", "evm_arithmetization/src/fixed_recursive_verifier.rs:connect_checkpoint_block", "evm_arithmetization/src/proof.rs:PublicValuesTarget"]}
{"id": "C76", "title": "The final public values describe the chain", "statement": "If a wrapped block proof is accepted, its public values (chain id, checkpoint state root and hash, new state root and hash) are those of a chain of whole blocks.", "quantifier": "all accepted wrapped proofs, chains of any length", "why_tests_cant": "as for C75", "anchors": ["evm_arithmetization/src/fixed_recursive_verifier.rs:create_block_wrapper_circuit", "evm_arithmetization/src/proof.rs:FinalPublicValues"]}
{"id": "C77", "title": "A two-to-one aggregate commits to both proofs", "statement": "An accepted proof that merges two wrapped proofs, at any nesting, is made of accepted wrapped proofs and its public values are the Merkle root of theirs; without a collision of the hash it has one such tree of public values.", "quantifier": "all nestings, all accepted proofs", "why_tests_cant": "nestings are unbounded", "anchors": ["evm_arithmetization/src/fixed_recursive_verifier.rs:create_two_to_one_block_circuit", "evm_arithmetization/src/fixed_recursive_verifier.rs:prove_two_to_one_block", "evm_arithmetization/src/fixed_recursive_verifier.rs:verify_two_to_one_block"]}
{"id": "C78", "title": "Only the crate's own circuits count", "statement": "A proof accepted for an aggregation, batch or block circuit could have been made with the crate's circuits only: no proof of another circuit, with another verifier key, can be part of it.", "quantifier": "all circuits an adversary may build", "why_tests_cant": "requires building circuits the crate does not have", "anchors": ["evm_arithmetization/src/fixed_recursive_verifier.rs:add_batch_agg_child", "evm_arithmetization/src/fixed_recursive_verifier.rs:verify_block", "evm_arithmetization/src/fixed_recursive_verifier.rs:verify_block_wrapper", "evm_arithmetization/src/fixed_recursive_verifier.rs:create_block_circuit"]}
{"id": "C79", "title": "Public values survive being written to the public inputs", "statement": "The public values set as the public inputs of a proof are those read back from these inputs, and the public inputs read back as the same values only if they are the same.", "quantifier": "all public values, all feature flags", "why_tests_cant": "unboundedly many values, and offsets of more than 2500 inputs", "anchors": ["evm_arithmetization/src/proof.rs:PublicValues::from_public_inputs", "evm_arithmetization/src/recursive_verifier.rs:set_public_value_targets", "evm_arithmetization/src/proof.rs:PublicValuesTarget::from_public_inputs"]}
{"id": "C80", "title": "Circuits survive serialization", "statement": "All the circuits, written to bytes, are read back from these bytes as the same circuits, with and without the tables.", "quantifier": "all circuits, all sizes and numbers of tables, all feature flags", "why_tests_cant": "tests use one small configuration", "anchors": ["evm_arithmetization/src/fixed_recursive_verifier.rs:AllRecursiveCircuits::to_bytes", "evm_arithmetization/src/fixed_recursive_verifier.rs:AllRecursiveCircuits::from_bytes", "evm_arithmetization/src/fixed_recursive_verifier.rs:RecursiveCircuitsForTableSize::to_buffer", "evm_arithmetization/src/proof.rs:PublicValuesTarget::to_buffer"]}
{"id": "C81", "title": "Prover and circuit use the same transcript and the same memory rows", "statement": "For all public values, the root circuit gives its challenger the same elements as the prover does, and adds the same rows (up to order) to the memory lookup, so that challenges and sums agree.", "quantifier": "all public values, all feature flags, all challenges", "why_tests_cant": "two independent implementations of a hundred rows; the order and the number of limbs matter", "anchors": ["evm_arithmetization/src/get_challenges.rs:observe_public_values", "evm_arithmetization/src/get_challenges.rs:observe_public_values_target", "evm_arithmetization/src/verifier.rs:get_memory_extra_looking_sum", "evm_arithmetization/src/recursive_verifier.rs:get_memory_extra_looking_sum_circuit"]}
{"id": "C82", "title": "The challenges are bound to the values they check", "statement": "Public values for which the challenger is given the same elements add the same terms to the memory lookup: no value that enters the lookup can be chosen after its challenges are known.", "quantifier": "all public values, all challenges", "why_tests_cant": "a prover that picks values after the challenges is never run", "anchors": ["evm_arithmetization/src/get_challenges.rs:observe_public_values_target", "evm_arithmetization/src/recursive_verifier.rs:get_memory_extra_looking_sum_circuit", "evm_arithmetization/src/fixed_recursive_verifier.rs:create_segment_circuit"]}
{"id": "C83", "title": "Honest aggregation succeeds", "statement": "Any contiguous run of segments, any two or more complete batches of a block that fit together, and any blocks that fit together, have an accepted aggregated proof with the public values the prover computes.", "quantifier": "runs, batches and chains of any length", "why_tests_cant": "lengths are unbounded; proving takes minutes per segment", "anchors": ["evm_arithmetization/src/fixed_recursive_verifier.rs:prove_segment_aggregation", "evm_arithmetization/src/fixed_recursive_verifier.rs:prove_batch_aggregation", "evm_arithmetization/src/fixed_recursive_verifier.rs:prove_block", "evm_arithmetization/src/fixed_recursive_verifier.rs:prove_block_wrapper"]}
{"id": "C84", "title": "Truncated circuit files are refused", "statement": "Bytes of serialized circuits that have lost their end are refused with an error, never read as circuits.", "quantifier": "all circuits, all places to cut", "why_tests_cant": "every cut point of gigabytes of data", "anchors": ["evm_arithmetization/src/fixed_recursive_verifier.rs:AllRecursiveCircuits::from_bytes"]}
{"id": "C85", "title": "The Keccak table exports permutations only", "statement": "In every table that satisfies the constraints of the Keccak table, each output handed to the sponge table is the Keccak-f[1600] permutation of an input handed to it with the same timestamp.", "quantifier": "all tables of field elements, of any height", "why_tests_cant": "a malicious prover's tables are never generated by tests; the quantifier is over the field", "anchors": ["evm_arithmetization/src/keccak/keccak_stark.rs:eval_packed_generic", "evm_arithmetization/src/keccak/keccak_stark.rs:ctl_data_inputs", "evm_arithmetization/src/keccak/keccak_stark.rs:ctl_data_outputs", "evm_arithmetization/src/keccak/logic.rs", "evm_arithmetization/src/keccak/round_flags.rs", "evm_arithmetization/src/keccak/constants.rs"]}
{"id": "C86", "title": "Every list of permutations has a Keccak table", "statement": "For every list of inputs and timestamps the generated Keccak table satisfies the constraints and exports each input together with its Keccak-f[1600] permutation.", "quantifier": "all lists of 25-word states, all timestamps, all minimal heights", "why_tests_cant": "2^1600 states; tests use one random state", "anchors": ["evm_arithmetization/src/keccak/keccak_stark.rs:generate_trace_rows", "evm_arithmetization/src/keccak/keccak_stark.rs:generate_trace_rows_for_perm", "evm_arithmetization/src/keccak/keccak_stark.rs:generate_trace_row_for_round", "evm_arithmetization/src/keccak/constants.rs"]}
{"id": "C87", "title": "Packed words are the bytes in memory", "statement": "In every accepted byte packing table, each sequence handed to the CPU has from 1 to 32 bytes, its word fits into them, and exactly its bytes are read from or written to memory, most significant first, from the address of the sequence on and at its timestamp; no other memory is accessed.", "quantifier": "all tables of field elements, of any height", "why_tests_cant": "a malicious prover's tables are never generated by tests", "anchors": ["evm_arithmetization/src/byte_packing/byte_packing_stark.rs:eval_packed_generic", "evm_arithmetization/src/byte_packing/byte_packing_stark.rs:ctl_looked_data", "evm_arithmetization/src/byte_packing/byte_packing_stark.rs:ctl_looking_memory", "evm_arithmetization/src/byte_packing/byte_packing_stark.rs:ctl_looking_memory_filter", "evm_arithmetization/src/byte_packing/byte_packing_stark.rs:lookups"]}
{"id": "C88", "title": "Every byte sequence has a row in the byte packing table", "statement": "For every list of sequences of at most 32 bytes the generated byte packing table is accepted and exports each of them; what is logged as memory operations for packing and unpacking is what the table looks up in memory, and the packed word is the number the bytes stand for (for unpacking, the lowest bytes of the word).", "quantifier": "all lists of operations, addresses, words and lengths", "why_tests_cant": "256^32 words; tests use random ones", "anchors": ["evm_arithmetization/src/byte_packing/byte_packing_stark.rs:generate_trace", "evm_arithmetization/src/byte_packing/byte_packing_stark.rs:generate_row_for_op", "evm_arithmetization/src/byte_packing/byte_packing_stark.rs:generate_range_checks", "evm_arithmetization/src/witness/util.rs:byte_packing_log", "evm_arithmetization/src/witness/util.rs:byte_unpacking_log"]}
{"id": "C89", "title": "Hashes the CPU sees are Keccak-256 of memory", "statement": "In accepted sponge, logic and Keccak tables, every hash handed to the CPU is the Keccak-256 hash of the bytes read from memory at the address, with the length and at the time handed over.", "quantifier": "all tables of field elements, of any height, and all strings", "why_tests_cant": "a malicious prover's tables are never generated by tests", "anchors": ["evm_arithmetization/src/keccak_sponge/keccak_sponge_stark.rs:eval_packed_generic", "evm_arithmetization/src/keccak_sponge/keccak_sponge_stark.rs:ctl_looked_data", "evm_arithmetization/src/keccak_sponge/keccak_sponge_stark.rs:ctl_looking_keccak_inputs", "evm_arithmetization/src/keccak_sponge/keccak_sponge_stark.rs:ctl_looking_keccak_outputs", "evm_arithmetization/src/keccak_sponge/keccak_sponge_stark.rs:ctl_looking_memory", "evm_arithmetization/src/keccak_sponge/keccak_sponge_stark.rs:ctl_looking_logic", "evm_arithmetization/src/all_stark.rs:ctl_keccak_sponge"]}
{"id": "C90", "title": "Every string hashed has its rows in the sponge table", "statement": "For any strings hashed, of any lengths, the generated sponge table is accepted next to the logic table generated from the logged operations and the Keccak table with the logged states; it shows the CPU the Keccak-256 hash of each string, and accesses memory exactly as logged.", "quantifier": "all lists of strings, addresses and clocks", "why_tests_cant": "strings of any length; tests use a few", "anchors": ["evm_arithmetization/src/keccak_sponge/keccak_sponge_stark.rs:generate_trace", "evm_arithmetization/src/keccak_sponge/keccak_sponge_stark.rs:generate_rows_for_op", "evm_arithmetization/src/keccak_sponge/keccak_sponge_stark.rs:generate_final_row", "evm_arithmetization/src/keccak_sponge/keccak_sponge_stark.rs:generate_common_fields", "evm_arithmetization/src/keccak_sponge/keccak_sponge_stark.rs:generate_range_checks", "evm_arithmetization/src/witness/util.rs:keccak_sponge_log", "evm_arithmetization/src/witness/util.rs:xor_into_sponge", "evm_arithmetization/src/cpu/kernel/keccak_util.rs:keccakf_u32s", "evm_arithmetization/src/cpu/kernel/keccak_util.rs:keccakf_u8s"]}
{"id": "C91", "title": "Every row executes one instruction of the set, in a mode that allows it", "statement": "In an accepted CPU table next to accepted arithmetic and logic tables, every row that executes an instruction executes exactly one, whose opcode belongs to the instruction set and to the row's operation flag, and kernel-only instructions are executed in kernel mode only.", "quantifier": "all tables of field elements, of any height, and all rows", "why_tests_cant": "a malicious prover's tables are never generated by tests", "anchors": ["evm_arithmetization/src/cpu/decode.rs:eval_packed_generic", "evm_arithmetization/src/cpu/decode.rs:OPCODES", "evm_arithmetization/src/cpu/decode.rs:COMBINED_OPCODES", "evm_arithmetization/src/cpu/cpu_stark.rs:ctl_arithmetic_base_rows", "evm_arithmetization/src/cpu/cpu_stark.rs:ctl_data_logic"]}
{"id": "C92", "title": "Registers after every instruction are those of the instruction set", "statement": "In an accepted CPU table, the row after an instruction has the program counter, mode, context, gas and stack length the instruction leaves; a system call or exception goes on in kernel mode at the address in the jump table and leaves the return information on the stack.", "quantifier": "all tables of field elements, of any height, and all rows but the last", "why_tests_cant": "a malicious prover's tables are never generated by tests", "anchors": ["evm_arithmetization/src/cpu/control_flow.rs:eval_packed_generic", "evm_arithmetization/src/cpu/gas.rs:eval_packed", "evm_arithmetization/src/cpu/jumps.rs:eval_packed", "evm_arithmetization/src/cpu/stack.rs:eval_packed", "evm_arithmetization/src/cpu/contextops.rs:eval_packed", "evm_arithmetization/src/cpu/syscalls_exceptions.rs:eval_packed"]}
{"id": "C93", "title": "An execution starts at the kernel's entry and ends where it halts", "statement": "In an accepted CPU table the first row starts the kernel at its entry point with an empty stack, the clock advances by one per row, and execution ends in kernel mode at the halting address, after which nothing is executed.", "quantifier": "all tables of field elements, of any height", "why_tests_cant": "a malicious prover's tables are never generated by tests", "anchors": ["evm_arithmetization/src/cpu/halt.rs:eval_packed", "evm_arithmetization/src/cpu/clock.rs:eval_packed", "evm_arithmetization/src/cpu/control_flow.rs:get_start_pc", "evm_arithmetization/src/cpu/control_flow.rs:get_halt_pc"]}
{"id": "C94", "title": "Instructions make the memory operations that are theirs", "statement": "In an accepted CPU table every instruction makes exactly the reads and writes of memory that belong to it: its operands are read from the stack, the old top is written back, the new top is read, loads and stores access the address given; a row that executes nothing accesses nothing.", "quantifier": "all tables of field elements, of any height, and all rows but the last", "why_tests_cant": "a malicious prover's tables are never generated by tests", "anchors": ["evm_arithmetization/src/cpu/stack.rs:eval_packed_one", "evm_arithmetization/src/cpu/stack.rs:eval_packed", "evm_arithmetization/src/cpu/dup_swap.rs:eval_packed", "evm_arithmetization/src/cpu/memio.rs:eval_packed", "evm_arithmetization/src/cpu/contextops.rs:eval_packed", "evm_arithmetization/src/cpu/jumps.rs:eval_packed_jump_jumpi", "evm_arithmetization/src/cpu/shift.rs:eval_packed", "evm_arithmetization/src/cpu/membus.rs:eval_packed", "evm_arithmetization/src/cpu/cpu_stark.rs:ctl_data_gp_memory", "evm_arithmetization/src/cpu/cpu_stark.rs:ctl_data_partial_memory", "evm_arithmetization/src/cpu/halt.rs:eval_packed"]}
{"id": "C95", "title": "Instructions do to the stack and to memory what the instruction set says", "statement": "In an accepted CPU table next to accepted arithmetic and logic tables that answer its lookups, every arithmetic, logic, comparison, shift, jump, stack, context and general memory instruction replaces its operands on the stack by the result the instruction set defines (sums modulo 2^256, quotients, powers of two for shifts, the value stored at the address loaded), leaves the rest of the stack as it was, and changes no memory outside the stack but the address it stores to.", "quantifier": "all tables of field elements, of any height, all rows but the last, all memory contents and stacks of any size", "why_tests_cant": "a malicious prover's tables are never generated by tests, and the operands range over all 256-bit words", "anchors": ["evm_arithmetization/src/cpu/stack.rs:eval_packed_one", "evm_arithmetization/src/cpu/stack.rs:eval_packed", "evm_arithmetization/src/cpu/dup_swap.rs:eval_packed", "evm_arithmetization/src/cpu/memio.rs:eval_packed", "evm_arithmetization/src/cpu/contextops.rs:eval_packed_get", "evm_arithmetization/src/cpu/jumps.rs:eval_packed_jump_jumpi", "evm_arithmetization/src/cpu/shift.rs:eval_packed", "evm_arithmetization/src/cpu/simple_logic/eq_iszero.rs:eval_packed", "evm_arithmetization/src/cpu/simple_logic/not.rs:eval_packed", "evm_arithmetization/src/cpu/pc.rs:eval_packed", "evm_arithmetization/src/cpu/push0.rs:eval_packed", "evm_arithmetization/src/cpu/modfp254.rs:eval_packed", "evm_arithmetization/src/cpu/cpu_stark.rs:ctl_arithmetic_base_rows", "evm_arithmetization/src/cpu/cpu_stark.rs:ctl_data_logic"]}
{"id": "C96", "title": "Memory tables generated for consistent histories are accepted", "statement": "For every history of memory operations in which each read returns the last value written to its address (or the initial value), generation of the memory table succeeds, the verifier's constraints and lookups accept the table, and it shows the other tables exactly the operations of the history, the initial values, the pruned contexts and, as final memory, the last value of each address in use outside pruned contexts (zeroes being left out in segments that start zeroed), in the order of addresses.", "quantifier": "all histories of up to 2^40 operations, all addresses, times and values, all lists of pruned contexts", "why_tests_cant": "gap filling and padding depend on the distances between all pairs of neighbouring addresses and times; tests generate a few executions", "anchors": ["evm_arithmetization/src/memory/memory_stark.rs:generate_trace", "evm_arithmetization/src/memory/memory_stark.rs:fill_gaps", "evm_arithmetization/src/memory/memory_stark.rs:pad_memory_ops", "evm_arithmetization/src/memory/memory_stark.rs:generate_first_change_flags_and_rc", "evm_arithmetization/src/memory/memory_stark.rs:generate_trace_col_major", "evm_arithmetization/src/memory/memory_stark.rs:insert_stale_contexts", "evm_arithmetization/src/memory/memory_stark.rs:into_row", "evm_arithmetization/src/memory/memory_stark.rs:ctl_data", "evm_arithmetization/src/memory/memory_stark.rs:ctl_looking_mem", "evm_arithmetization/src/memory/memory_stark.rs:ctl_filter_mem_before", "evm_arithmetization/src/witness/memory.rs:MemoryOp"]}
{"id": "C97", "title": "The final memory of a segment is the initial memory of the next", "statement": "When an execution is cut into segments, the table of the final memory generated for a segment is row by row (and so in its commitment) the table of the initial memory generated for the next segment from the memory the interpreter hands over, with pruned contexts cleared; both tables are accepted and show the words the memory table hands over.", "quantifier": "all memories, all histories of operations on them in the order of their times, all pruned contexts other than the kernel's", "why_tests_cant": "two different programs (the interpreter and the table generation) must agree on every address of every execution", "anchors": ["evm_arithmetization/src/cpu/kernel/interpreter.rs:apply_memops", "evm_arithmetization/src/cpu/kernel/interpreter.rs:get_active_memory", "evm_arithmetization/src/generation/mod.rs:get_all_memory_address_and_values", "evm_arithmetization/src/generation/mod.rs:initialize_kernel_code_and_shift_table", "evm_arithmetization/src/memory_continuation/memory_continuation_stark.rs:generate_trace", "evm_arithmetization/src/memory_continuation/memory_continuation_stark.rs:mem_before_values_to_rows", "evm_arithmetization/src/witness/memory.rs:MemoryState"]}
{"id": "C98", "title": "Arithmetic tables generated for any operations are accepted and show their results", "statement": "For every list of arithmetic operations, generation of the arithmetic table succeeds and the verifier's constraints and range check accept the table; the CPU table finds in it exactly the listed operations, in their order, each with the result the EVM prescribes (division and modulus by zero, shifts by 256 or more and indices of 32 or more included).", "quantifier": "all lists of operations of any length, all operands of 256 bits, all range checked words", "why_tests_cant": "carries, quotients and auxiliary polynomials are computed for operands of 256 bits with separate programs for generation and constraints; the tests try random operands, one operation at a time", "anchors": ["evm_arithmetization/src/arithmetic/mod.rs:result", "evm_arithmetization/src/arithmetic/mod.rs:to_rows", "evm_arithmetization/src/arithmetic/addcy.rs:generate", "evm_arithmetization/src/arithmetic/mul.rs:generate_mul", "evm_arithmetization/src/arithmetic/modular.rs:generate_modular_op", "evm_arithmetization/src/arithmetic/divmod.rs:generate_divmod", "evm_arithmetization/src/arithmetic/shift.rs:generate", "evm_arithmetization/src/arithmetic/byte.rs:generate", "evm_arithmetization/src/arithmetic/arithmetic_stark.rs:generate_trace", "evm_arithmetization/src/arithmetic/arithmetic_stark.rs:generate_range_checks", "evm_arithmetization/src/arithmetic/utils.rs:pol_remove_root_2exp"]}
{"id": "C99", "title": "The memory operations of an accepted table, in the order of time, are those of one memory", "statement": "For every memory table the verifier's constraints accept and every ordering of the operations it shows by increasing time (simultaneous operations on one address being reads), carrying the operations out one after the other on a single memory, zero at the start outside the segments filled beforehand, gives for every read exactly the value shown.", "quantifier": "all tables of any height, all lists of operations, all addresses and times below the stated bound", "why_tests_cant": "the verifier never sees the operations in the order of time: the table is sorted by address, and agreement with a sequential memory is a statement about all histories", "anchors": ["evm_arithmetization/src/memory/memory_stark.rs:eval_packed_generic", "evm_arithmetization/src/memory/memory_stark.rs:ctl_data", "evm_arithmetization/src/memory/memory_stark.rs:ctl_filter"]}
{"id": "C100", "title": "The kernel's signed arithmetic instructions compute the EVM's signed operations", "statement": "For every pair of operands, SDIV, SMOD, SIGNEXTEND, SAR, SLT and SGT as carried out by the kernel's assembly return to the program the two's complement result of the EVM, charge exactly the gas of the instruction and change nothing else, whatever lies below on the stack and in memory; they fault only for want of gas.", "quantifier": "all 256-bit operands, stacks, memories and gas amounts", "why_tests_cant": "the code branches on signs, uses a square and multiply loop for shifts and has special cases (minimal integer over minus one, shifts of 256 and more, byte numbers above 31); tests try a few operands", "anchors": ["evm_arithmetization/src/cpu/kernel/asm/signed.asm:_sys_sdiv", "evm_arithmetization/src/cpu/kernel/asm/signed.asm:_sys_smod", "evm_arithmetization/src/cpu/kernel/asm/signed.asm:_sys_signextend", "evm_arithmetization/src/cpu/kernel/asm/signed.asm:_sys_sar", "evm_arithmetization/src/cpu/kernel/asm/signed.asm:_sys_slt", "evm_arithmetization/src/cpu/kernel/asm/signed.asm:_sys_sgt"]}
{"id": "C101", "title": "The kernel's exponentiation computes powers modulo 2^256 and charges by the exponent's length", "statement": "For every base and exponent, EXP as carried out by the kernel's assembly returns base to the exponent modulo 2^256 and charges 10 gas plus 50 for every byte of the exponent, and changes nothing else.", "quantifier": "all 256-bit bases and exponents, all stacks, memories and gas amounts", "why_tests_cant": "a square and multiply loop of up to 256 rounds and a nested binary search for the length; tests try a few operands", "anchors": ["evm_arithmetization/src/cpu/kernel/asm/exp.asm:exp", "evm_arithmetization/src/cpu/kernel/asm/exp.asm:sys_exp"]}
{"id": "C102", "title": "Looking up an account or a storage slot gives what is stored there, whatever the prover supplies", "statement": "In the list of accounts the kernel's lookup returns the pointer to the account's fields, or 0 if the account is not in the list; in the list of storage slots it returns the slot's value, or the given default if the slot is not in the list. This holds for every value the prover supplies as the position to look at: the lookup returns this answer or there is no proof; with the right position it does return.", "quantifier": "all lists, keys and values, and all values a prover may supply", "why_tests_cant": "tests run an honest prover; a wrong position is never supplied, and the not-found answer is checked only for keys that are not there", "anchors": ["evm_arithmetization/src/cpu/kernel/asm/mpt/linked_list/linked_list.asm:search_account", "evm_arithmetization/src/cpu/kernel/asm/mpt/linked_list/linked_list.asm:search_slot", "evm_arithmetization/src/cpu/kernel/asm/mpt/linked_list/linked_list.asm:get_valid_account_ptr", "evm_arithmetization/src/cpu/kernel/asm/mpt/linked_list/linked_list.asm:get_valid_slot_ptr"]}
{"id": "C103", "title": "Writing and removing accounts and storage slots changes exactly one entry, whatever the prover supplies", "statement": "Inserting or overwriting an account or a storage slot in the kernel's lists makes the list hold exactly the previous entries with this one changed, and keeps it sorted and linked; removing an entry takes away exactly this one, which was there. The other list and all memory outside the lists (and, for a new account, the data area that holds a copy of its fields) are unchanged. For every value the prover supplies this happens or there is no proof; with the right position it does happen.", "quantifier": "all lists with room for one more entry, all keys and values, all values a prover may supply", "why_tests_cant": "tests run an honest prover on short lists; positions that name removed nodes, foreign nodes or the start are never supplied", "anchors": ["evm_arithmetization/src/cpu/kernel/asm/mpt/linked_list/linked_list.asm:insert_account_with_overwrite", "evm_arithmetization/src/cpu/kernel/asm/mpt/linked_list/linked_list.asm:remove_account", "evm_arithmetization/src/cpu/kernel/asm/mpt/linked_list/linked_list.asm:insert_slot_with_value", "evm_arithmetization/src/cpu/kernel/asm/mpt/linked_list/linked_list.asm:remove_slot"]}
{"id": "C104", "title": "Removing all storage of an account leaves no slot of it, whatever the prover supplies", "statement": "After the kernel's routine that removes all storage slots of an account returns, the list holds exactly the slots of the other accounts, for every value the prover supplied.", "quantifier": "all lists of slots, all accounts and all values a prover may supply", "why_tests_cant": "tests run an honest prover, which names the right node to start from", "anchors": ["evm_arithmetization/src/cpu/kernel/asm/mpt/linked_list/linked_list.asm:remove_all_account_slots"]}
{"id": "C105", "title": "An address or storage key counts as accessed exactly when it was accessed before, whatever the prover supplies", "statement": "Marking an address (or a storage key of an address) as accessed reports whether it was already marked in this transaction, and marks it if not; the first time it also writes one journal entry, so that it can be undone, and (for a key) hands out a fresh place for the slot's original value, later the same place again. Unmarking takes away exactly this entry, which was there. Nothing else in memory changes. For every value the prover supplies this happens or there is no proof; with the right position it does happen; at the start of a transaction nothing is marked.", "quantifier": "all sets of accessed addresses and keys, all addresses and keys, all values a prover may supply", "why_tests_cant": "tests run an honest prover; positions outside the list are never supplied", "anchors": ["evm_arithmetization/src/cpu/kernel/asm/core/access_lists.asm:init_access_lists", "evm_arithmetization/src/cpu/kernel/asm/core/access_lists.asm:insert_accessed_addresses", "evm_arithmetization/src/cpu/kernel/asm/core/access_lists.asm:remove_accessed_addresses", "evm_arithmetization/src/cpu/kernel/asm/core/access_lists.asm:insert_accessed_storage_keys", "evm_arithmetization/src/cpu/kernel/asm/core/access_lists.asm:remove_accessed_storage_keys", "evm_arithmetization/src/cpu/kernel/asm/core/access_lists.asm:get_valid_addr_ptr", "evm_arithmetization/src/cpu/kernel/asm/core/access_lists.asm:get_valid_storage_ptr", "evm_arithmetization/src/cpu/kernel/asm/journal/journal.asm:journal_add_1"]}
{"id": "C106", "title": "User code can only be made to jump to its jump destinations", "statement": "Whatever addresses and starting positions the prover supplies, marking the jump destinations of a context's code sets only marks of positions inside the code that hold the byte 0x5b and at which an instruction begins, changes nothing else and gives back the stack, or there is no proof; if the prover names real jump destinations with fitting positions, it comes back with all of them marked.", "quantifier": "all codes, contexts and memories, all sequences of values a prover may supply", "why_tests_cant": "tests run an honest prover on a few codes; data that looks like an instruction and hostile positions are not tried", "anchors": ["evm_arithmetization/src/cpu/kernel/asm/core/jumpdest_analysis.asm:jumpdest_analysis", "evm_arithmetization/src/cpu/kernel/asm/core/jumpdest_analysis.asm:check_proof", "evm_arithmetization/src/cpu/kernel/asm/core/jumpdest_analysis.asm:write_table_if_jumpdest", "evm_arithmetization/src/cpu/kernel/asm/core/jumpdest_analysis.asm:verify_path_and_write_jumpdest_table", "evm_arithmetization/src/cpu/kernel/asm/core/jumpdest_analysis.asm:code_bytes_to_skip"]}
{"id": "C107", "title": "A jump is answered with a fault only if its destination is invalid", "statement": "When user code jumps and the prover claims that the destination is invalid, the kernel comes to the fault only if the destination is not a jump destination of the running code (deployed code or init code), whatever the prover supplies; and if it is not one, the prover can make it come there.", "quantifier": "all codes up to the size limit of init code, all destinations, all values a prover may supply", "why_tests_cant": "tests run an honest prover; jumps to valid destinations never get to the handler", "anchors": ["evm_arithmetization/src/cpu/kernel/asm/core/exception.asm:invalid_jump_jumpi_destination_common", "evm_arithmetization/src/cpu/kernel/asm/core/jumpdest_analysis.asm:verify_non_jumpdest", "evm_arithmetization/src/cpu/kernel/asm/core/jumpdest_analysis.asm:write_table_if_jumpdest", "evm_arithmetization/src/cpu/kernel/constants/mod.rs:MAX_CODE_SIZE"]}
{"id": "C108", "title": "The kernel's arithmetic on long integers is exact", "statement": "For integers of any number of 128-bit limbs, wherever they are in the general segment, the kernel's routines add with carry, add a multiple with carry, multiply to double length, compare, test for zero and one and halve exactly as on the integers; they change nothing but the result and use no input of the prover.", "quantifier": "all lengths, all integers, all positions that do not overlap the result", "why_tests_cant": "tests use one length and random integers; carries through many limbs and the limits of words are not reached", "anchors": ["evm_arithmetization/src/cpu/kernel/asm/bignum/add.asm:add_bignum", "evm_arithmetization/src/cpu/kernel/asm/bignum/addmul.asm:addmul_bignum", "evm_arithmetization/src/cpu/kernel/asm/bignum/mul.asm:mul_bignum", "evm_arithmetization/src/cpu/kernel/asm/bignum/cmp.asm:cmp_bignum", "evm_arithmetization/src/cpu/kernel/asm/bignum/iszero.asm:iszero_bignum", "evm_arithmetization/src/cpu/kernel/asm/bignum/isone.asm:isone_bignum", "evm_arithmetization/src/cpu/kernel/asm/bignum/shr.asm:shr_bignum"]}
{"id": "C109", "title": "Modular multiplication of long integers gives the product modulo the modulus whatever the prover supplies", "statement": "For every remainder and quotient the prover supplies, the kernel's modular multiplication either leads to no proof or stores a * b mod m; with the right remainder and quotient it does.", "quantifier": "all lengths, all integers of that length, all values a prover may supply", "why_tests_cant": "tests run an honest prover; a wrong remainder with a quotient that makes the check pass is not tried", "anchors": ["evm_arithmetization/src/cpu/kernel/asm/bignum/modmul.asm:modmul_bignum", "evm_arithmetization/src/cpu/kernel/asm/bignum/modmul.asm:modmul_check_loop", "evm_arithmetization/src/cpu/kernel/asm/bignum/modmul.asm:modmul_return_3"]}
{"id": "C110", "title": "Block operations on kernel memory are exact for every length and overlap", "statement": "The kernel's routines for copying cells, copying bytes upwards and downwards, clearing cells and writing the bytes of a word leave exactly the old contents of the source (zeros, the bytes) in the destination and change nothing else, for every length, also when source and destination overlap in the way the routine is for.", "quantifier": "all lengths, all addresses in a segment, all memory contents", "why_tests_cant": "tests copy a few short blocks; lengths around multiples of 32 and overlapping blocks are too many to try", "anchors": ["evm_arithmetization/src/cpu/kernel/asm/memory/memcpy.asm:memcpy", "evm_arithmetization/src/cpu/kernel/asm/memory/memcpy.asm:memcpy_bytes", "evm_arithmetization/src/cpu/kernel/asm/memory/memcpy.asm:memcpy_bytes_backwards", "evm_arithmetization/src/cpu/kernel/asm/memory/memset.asm:memset", "evm_arithmetization/src/cpu/kernel/asm/memory/packing.asm:mstore_unpacking"]}
{"id": "C111", "title": "Modular exponentiation gives the power modulo the modulus whatever the prover supplies", "statement": "For bases, exponents and moduli of any length and every sequence of numbers the prover supplies, the exponentiation behind the MODEXP precompile either leads to no proof or stores b^e mod m (0 for the modulus 0, 0^0 = 1); with the right numbers it does, and it changes nothing but the result, the exponent and its scratch space.", "quantifier": "all lengths, all bases, exponents and moduli of that length, all sequences of values a prover may supply", "why_tests_cant": "tests run an honest prover on a few exponents; sequences of wrong remainders that are accepted are not tried", "anchors": ["evm_arithmetization/src/cpu/kernel/asm/bignum/modexp.asm:modexp_bignum", "evm_arithmetization/src/cpu/kernel/asm/bignum/modexp.asm:modexp_loop", "evm_arithmetization/src/cpu/kernel/asm/bignum/modmul.asm:modmul_bignum", "evm_arithmetization/src/cpu/kernel/asm/core/precompiles/expmod.asm:precompile_expmod"]}
{"id": "C112", "title": "Instructions that read the environment give the call's, the transaction's and the block's data", "statement": "Served by the kernel, ADDRESS, CALLER, CALLVALUE, CALLDATASIZE, RETURNDATASIZE, CODESIZE, ORIGIN, GASPRICE, COINBASE, TIMESTAMP, NUMBER, PREVRANDAO, GASLIMIT, CHAINID, BASEFEE and GAS cost 2 gas and push the value of the call, transaction or block they are named after; BLOCKHASH costs 20 and gives, for every number on the stack, the hash of that block if it is one of the last 256 and zero otherwise; BLOBHASH costs 3 and gives the transaction's blob hash or zero; BLOBBASEFEE gives the price that follows from the block's excess blob gas; if the gas does not suffice the call faults.", "quantifier": "all blocks, calls, transactions, stacks, operands, gas counters and prover inputs", "why_tests_cant": "tests cover a few block numbers and one block; the boundary cases of BLOCKHASH over all 256-bit operands, and what a prover may supply for BLOBBASEFEE, are not enumerable", "anchors": ["evm_arithmetization/src/cpu/kernel/asm/memory/metadata.asm:sys_blockhash", "evm_arithmetization/src/cpu/kernel/asm/memory/metadata.asm:blockhash", "evm_arithmetization/src/cpu/kernel/asm/memory/metadata.asm:sys_blobbasefee", "evm_arithmetization/src/cpu/kernel/asm/memory/metadata.asm:sys_timestamp", "evm_arithmetization/src/cpu/kernel/asm/core/gas.asm:sys_gas", "evm_arithmetization/src/generation/mod.rs:apply_metadata_and_tries_memops"]}
{"id": "C113", "title": "Instructions on memory store, load, copy and charge as the EVM does", "statement": "Served by the kernel, MLOAD, MSTORE, MSTORE8, MSIZE, CALLDATALOAD, CALLDATACOPY, RETURNDATACOPY, CODECOPY and MCOPY push what they should, leave the memory they should (zeros beyond the call data and the code, overlapping blocks copied as if through a buffer, memory grown to whole words, zero where new), charge the fixed price, the price per word and the quadratic price of new memory, change nothing else, and fault exactly if the gas does not suffice or RETURNDATACOPY would read past the end.", "quantifier": "all memories, call data, return data, code, 256-bit operands and gas counters with a gas limit of at most 2^32", "why_tests_cant": "tests run a few offsets and lengths; overlap, word boundaries, the loops of the copies and operands near 2^256 are not enumerable", "anchors": ["evm_arithmetization/src/cpu/kernel/asm/memory/syscalls.asm:sys_mload", "evm_arithmetization/src/cpu/kernel/asm/memory/syscalls.asm:sys_mstore", "evm_arithmetization/src/cpu/kernel/asm/memory/syscalls.asm:sys_mcopy", "evm_arithmetization/src/cpu/kernel/asm/memory/syscalls.asm:wcopy", "evm_arithmetization/src/cpu/kernel/asm/memory/syscalls.asm:codecopy_after_checks", "evm_arithmetization/src/cpu/kernel/asm/memory/metadata.asm:update_mem_words", "evm_arithmetization/src/cpu/kernel/asm/memory/metadata.asm:memory_cost"]}
{"id": "C114", "title": "Calls charge what the EVM's rules say and pass on the right amount of gas", "statement": "CALL, CALLCODE, STATICCALL and DELEGATECALL charge 100 gas for an account that was accessed before and 2600 otherwise, 9000 for a value, 25000 more if CALL sends a value to a dead account, and the gas they pass on, which is what the caller asks for but at most all but one 64th of the rest; the callee receives that and a stipend of 2300 with a value; if the price is more than the gas that remains, the caller is out of gas.", "quantifier": "all four instructions, gas counters, limits below 2^63, 256-bit operands and states of the account", "why_tests_cant": "tests run a few calls; requests of more gas than there is, near multiples of 2^64, with a price just above the gas that remains are not among them", "anchors": ["evm_arithmetization/src/cpu/kernel/asm/core/call_gas.asm:call_charge_gas", "evm_arithmetization/src/cpu/kernel/asm/core/call_gas.asm:new_cost", "evm_arithmetization/src/cpu/kernel/asm/core/call.asm:sys_call", "evm_arithmetization/src/cpu/kernel/asm/core/call.asm:call_too_deep", "evm_arithmetization/src/cpu/kernel/asm/mpt/read.asm:mpt_read_state_trie", "evm_arithmetization/src/cpu/kernel/asm/core/util.asm:is_dead"]}
{"id": "C115", "title": "SLOAD and SSTORE read, write, charge and refund as the EVM's rules say", "statement": "SLOAD gives the value of the slot, for 100 gas or 2100 at the first access; SSTORE faults in a static call, with 2300 gas or less, or if its price (EIP-2200, EIP-2929) is more than the gas left, and otherwise gives the slot its new value, leaves every other slot alone, charges that price, changes the refund counter as EIP-3529 says, remembers the value from the start of the transaction and writes what is needed to undo it to the journal.", "quantifier": "all accounts, slots, values, gas counters, limits below 2^63, storage contents, accessed slots and values the prover supplies", "why_tests_cant": "tests run some combinations of original, current and new value with honest hints; the rules depend on three 256-bit values and the hints are free", "anchors": ["evm_arithmetization/src/cpu/kernel/asm/mpt/storage/storage_read.asm:sys_sload", "evm_arithmetization/src/cpu/kernel/asm/mpt/storage/storage_read.asm:sload_current", "evm_arithmetization/src/cpu/kernel/asm/mpt/storage/storage_write.asm:sys_sstore", "evm_arithmetization/src/cpu/kernel/asm/mpt/storage/storage_write.asm:sstore_refund", "evm_arithmetization/src/cpu/kernel/asm/core/access_lists.asm:insert_accessed_storage_keys", "evm_arithmetization/src/cpu/kernel/asm/journal/journal.asm:journal_add_3"]}
{"id": "C116", "title": "The intrinsic gas of a transaction is what the Yellow Paper says", "statement": "Before anything is executed a transaction is charged 21000 gas, 4 for every zero byte and 16 for every other byte of its data, 32000 and 2 for every word of init code if it creates a contract, and the price of its access list; a creation with more than 49152 bytes of init code cannot be part of a proven block.", "quantifier": "all data of any length below 2^32, creations and messages, and all prices of access lists below 2^64", "why_tests_cant": "tests compute a few sums; the cost is a loop over data of any length", "anchors": ["evm_arithmetization/src/cpu/kernel/asm/core/intrinsic_gas.asm:intrinsic_gas", "evm_arithmetization/src/cpu/kernel/asm/core/intrinsic_gas.asm:count_zeros_loop", "evm_arithmetization/src/cpu/kernel/asm/core/process_txn.asm:process_normalized_txn"]}
{"id": "C117", "title": "Valid transactions are executed, and no others, and the sender pays for the gas in advance", "statement": "A transaction is executed exactly if its fees cover the base fee, its gas limit covers the intrinsic gas and fits in the block, nonce and chain identifier match, the sender has no code, and the sender's balance covers the gas limit times the greatest fee plus the value; then exactly gas limit times effective price is taken from the sender, the nonce grows by 1, both can be undone, and no other account changes; any other transaction changes no account.", "quantifier": "all transactions, base fees, block limits, accounts and balances", "why_tests_cant": "tests use small fees and rich senders; the sums matter for 256-bit fields chosen by the sender", "anchors": ["evm_arithmetization/src/cpu/kernel/asm/core/process_txn.asm:process_normalized_txn", "evm_arithmetization/src/cpu/kernel/asm/core/process_txn.asm:compute_fees", "evm_arithmetization/src/cpu/kernel/asm/core/process_txn.asm:buy_gas", "evm_arithmetization/src/cpu/kernel/asm/core/process_txn.asm:invalid_txn", "evm_arithmetization/src/cpu/kernel/asm/core/transfer.asm:deduct_eth", "evm_arithmetization/src/cpu/kernel/asm/core/nonce.asm:increment_nonce", "evm_arithmetization/src/cpu/kernel/asm/account_code.asm:extcodehash", "evm_arithmetization/src/cpu/kernel/asm/core/touched_addresses.asm:insert_touched_addresses"]}
{"id": "C118", "title": "Transfers conserve ether", "statement": "Moving wei from one account to another makes the first balance smaller and the second greater by exactly that amount (and changes nothing if they are the same account), creates the recipient only if it gets something, and changes no nonce, no code and no other account; the ether of any set of accounts containing both stays the same. If the sender does not exist or has too little, no account changes and the caller is told so.", "quantifier": "all states with any number of accounts, all addresses and amounts, existing and new recipients, as long as the two balances together fit into 256 bits", "why_tests_cant": "tests move a few amounts between a few accounts; conservation is about every state, including recipients that must be inserted anywhere in the list of accounts", "anchors": ["evm_arithmetization/src/cpu/kernel/asm/core/transfer.asm:transfer_eth", "evm_arithmetization/src/cpu/kernel/asm/core/transfer.asm:deduct_eth", "evm_arithmetization/src/cpu/kernel/asm/core/transfer.asm:add_eth", "evm_arithmetization/src/cpu/kernel/asm/core/transfer.asm:add_eth_new_account", "evm_arithmetization/src/cpu/kernel/asm/mpt/insert/insert_trie_specific.asm:mpt_insert_state_trie", "evm_arithmetization/src/cpu/kernel/asm/mpt/linked_list/linked_list.asm:insert_account_with_overwrite", "evm_arithmetization/src/cpu/kernel/asm/mpt/linked_list/linked_list.asm:search_account"]}
{"id": "C119", "title": "At the end of a transaction the beneficiary gets its tip and the sender the price of the unused gas, and no ether is created", "statement": "With the gas limit L, u gas used and a refund of r, at most a fifth of u, the beneficiary gets (u-r) times the priority fee, the sender gets back (L-u+r) times the price of gas, no other account changes, and what is gone in all is (u-r) times the base fee. A transaction never creates ether.", "quantifier": "all gas limits, leftovers, refund counters, fees, accounts, and beneficiaries old and new", "why_tests_cant": "tests settle a few transactions with small fees; the sums must be right for every 256-bit price", "anchors": ["evm_arithmetization/src/cpu/kernel/asm/core/process_txn.asm:pay_coinbase_and_refund_sender", "evm_arithmetization/src/cpu/kernel/asm/core/process_txn.asm:process_message_txn_after_call_contd", "evm_arithmetization/src/cpu/kernel/asm/core/process_txn.asm:buy_gas", "evm_arithmetization/src/cpu/kernel/asm/core/transfer.asm:add_eth"]}
{"id": "C120", "title": "SELFDESTRUCT deletes a contract only if it was created in the same transaction (EIP-6780)", "statement": "Creating a contract where no account has a nonce or code gives its account the nonce 1, the old balance and no code, changes no other account and makes it count as created; where there is a contract already the creation fails and nothing counts as created. SELFDESTRUCT moves the whole balance to the recipient, and the contract is deleted afterwards if and only if it counts as created in this transaction. What a reverted call did to this is undone.", "quantifier": "all states with any number of accounts, created contracts and accounts to delete; all addresses, recipients (also the contract itself, or one that does not exist) and balances", "why_tests_cant": "tests destroy a few contracts; that an old contract survives must hold after every sequence of creations and failed creations in the transaction", "anchors": ["evm_arithmetization/src/cpu/kernel/asm/core/create_contract_account.asm:create_contract_account", "evm_arithmetization/src/cpu/kernel/asm/core/create.asm:run_constructor", "evm_arithmetization/src/cpu/kernel/asm/core/terminate.asm:sys_selfdestruct", "evm_arithmetization/src/cpu/kernel/asm/core/selfdestruct_list.asm:insert_selfdestruct_list", "evm_arithmetization/src/cpu/kernel/asm/core/create.asm:create_collision"]}
{"id": "C121", "title": "The end of a transaction deletes the destroyed contracts and the touched empty accounts, and nothing else", "statement": "After a transaction the accounts on the list of destroyed contracts are gone with their storage, and so are the touched accounts that are empty (no nonce, no balance, no code); every other account and every slot of another account is unchanged.", "quantifier": "all states with any number of accounts, slots, destroyed and touched addresses, and all hints of the prover", "why_tests_cant": "tests delete one or two accounts with an honest prover; which accounts survive must not depend on the prover", "anchors": ["evm_arithmetization/src/cpu/kernel/asm/core/selfdestruct_list.asm:delete_all_selfdestructed_addresses", "evm_arithmetization/src/cpu/kernel/asm/core/touched_addresses.asm:delete_all_touched_addresses", "evm_arithmetization/src/cpu/kernel/asm/mpt/delete/delete.asm:delete_account", "evm_arithmetization/src/cpu/kernel/asm/mpt/read.asm:mpt_read_state_trie"]}
{"id": "C122", "title": "A call that fails leaves no trace", "statement": "When a call or a creation reverts, every balance, nonce, code hash and storage slot, the sets of accessed addresses and slots, the touched addresses, the contracts created and to be deleted, the refund counter and the logs are what they were when it began (but for the address 3, which stays touched and accessed on purpose); nothing else in memory changes, the journal is what it was, and the checkpoint is gone.", "quantifier": "all sequences of any length of transfers, nonce, code and storage changes, creations, self-destructions, accesses, refunds and logs since the checkpoint, also over nested checkpoints; all states, with any number of accounts and slots", "why_tests_cant": "tests revert a few short histories; that each entry undoes its change in every state that later entries lead back to is a statement about all histories", "anchors": ["evm_arithmetization/src/cpu/kernel/asm/journal/revert.asm:revert_checkpoint", "evm_arithmetization/src/cpu/kernel/asm/journal/revert.asm:revert_batch", "evm_arithmetization/src/cpu/kernel/asm/journal/balance_transfer.asm:revert_balance_transfer", "evm_arithmetization/src/cpu/kernel/asm/journal/account_destroyed.asm:revert_account_destroyed", "evm_arithmetization/src/cpu/kernel/asm/journal/account_created.asm:revert_account_created", "evm_arithmetization/src/cpu/kernel/asm/journal/storage_change.asm:revert_storage_change", "evm_arithmetization/src/cpu/kernel/asm/journal/nonce_change.asm:revert_nonce_change", "evm_arithmetization/src/cpu/kernel/asm/journal/log.asm:revert_log", "evm_arithmetization/src/cpu/kernel/asm/core/terminate.asm:sys_selfdestruct"]}
{"id": "C123", "title": "A creation ends with the right code or with nothing", "statement": "When the constructor of a CREATE or CREATE2 ends normally, what it returned becomes the code of the new account exactly if it has at most 24576 bytes, does not begin with 0xEF and 200 gas for each byte are left: then that gas is paid, the rest goes back to the creator, the account gets the hash of the code, no other account changes, the address is the result, the creator's return data is empty and the journal holds what undoes it. Otherwise the result is 0, the gas is gone, the state is that of before the creation and the return data is empty. This does not depend on the prover.", "quantifier": "all return data of any length, all gas amounts, all states with any number of accounts, all journals since the checkpoint, all prover hints", "why_tests_cant": "tests create a few contracts with fresh return data; what older return data, every size around the limits and every hint do is a statement about all states", "anchors": ["evm_arithmetization/src/cpu/kernel/asm/core/create.asm:after_constructor", "evm_arithmetization/src/cpu/kernel/asm/core/create.asm:set_codehash", "evm_arithmetization/src/cpu/kernel/asm/core/create.asm:create_first_byte_ef", "evm_arithmetization/src/cpu/kernel/asm/core/create.asm:create_code_too_large", "evm_arithmetization/src/cpu/kernel/asm/core/create.asm:create_oog"]}
{"id": "C124", "title": "Transient storage keeps what each contract stored", "statement": "TLOAD gives for 100 gas the value that the contract last stored in the slot with TSTORE in this transaction, or 0, and changes nothing. TSTORE, for 100 gas and not in a static call, sets that slot of that contract and no other slot of any contract, and logs the value before if it differs. Undoing the entry restores the slot. Every transaction starts with all slots 0.", "quantifier": "all contracts, slots and values, any number of entries in any order, all gas amounts", "why_tests_cant": "tests store in a few slots of one contract; that slots and values of one contract are never taken for addresses and slots of another is a statement about all contents", "anchors": ["evm_arithmetization/src/cpu/kernel/asm/memory/transient_storage.asm:search_transient_storage", "evm_arithmetization/src/cpu/kernel/asm/memory/transient_storage.asm:sys_tload", "evm_arithmetization/src/cpu/kernel/asm/memory/transient_storage.asm:sys_tstore", "evm_arithmetization/src/cpu/kernel/asm/journal/transient_storage_change.asm:revert_transient_storage_change"]}
{"id": "C125", "title": "What the kernel writes as RLP is RLP, and it reads back what it wrote", "statement": "The kernel's RLP routines write, for every number below 2^256, every byte string and every list, exactly the bytes of its RLP encoding (Yellow Paper, appendix B), change nothing else in memory, and give the address after them. No hint of the prover leads to another encoding. Reading an encoding gives the number, or the place and length of the contents, and the address after. The key of transaction n+1 follows from that of transaction n.", "quantifier": "all numbers below 2^256, byte strings and lists of any length, all memory contents, all hints, all transaction numbers below 65535", "why_tests_cant": "tests encode a few values; the borders at 0, 128, 256^k and 55 bytes and every hint of the prover need a proof", "anchors": ["evm_arithmetization/src/cpu/kernel/asm/rlp/encode.asm:encode_rlp_list_prefix", "evm_arithmetization/src/cpu/kernel/asm/rlp/encode.asm:prepend_rlp_list_prefix", "evm_arithmetization/src/cpu/kernel/asm/rlp/encode_rlp_scalar.asm:encode_rlp_scalar", "evm_arithmetization/src/cpu/kernel/asm/rlp/encode_rlp_scalar.asm:doubly_encode_rlp_scalar", "evm_arithmetization/src/cpu/kernel/asm/rlp/encode_rlp_string.asm:encode_rlp_string", "evm_arithmetization/src/cpu/kernel/asm/rlp/decode.asm:decode_rlp_scalar", "evm_arithmetization/src/cpu/kernel/asm/rlp/decode.asm:decode_rlp_string_len", "evm_arithmetization/src/cpu/kernel/asm/rlp/decode.asm:decode_rlp_list_len", "evm_arithmetization/src/cpu/kernel/asm/rlp/num_bytes.asm:num_bytes", "evm_arithmetization/src/cpu/kernel/asm/rlp/increment_bounded_rlp.asm:increment_bounded_rlp"]}
{"id": "C126", "title": "The kernel executes exactly the legacy transaction that was signed", "statement": "From the RLP encoding of a legacy transaction the kernel takes the nonce, gas price, gas limit, recipient (or contract creation), value, call data and signature that it encodes, and writes nothing else. The hash it gives to signature recovery is that of the bytes EIP-155 (or, for v of 27 or 28, the original rule) says were signed, with the parity, r and s of the transaction. Those bytes determine every field that is executed and the chain. A signature with s of at least half the order, or a recipient of a length other than 0 or 20, is refused. The recovered sender becomes the origin; a failed recovery ends the proof.", "quantifier": "all legacy transactions with v of 27, 28 or at least 35, of any length below 2^32-1 bytes, all memory contents, all hints", "why_tests_cant": "tests decode a few transactions of one shape; the lengths of every field, the place of the rewritten list header and every hint need a proof", "anchors": ["evm_arithmetization/src/cpu/kernel/asm/transactions/type_0.asm:process_type_0_txn", "evm_arithmetization/src/cpu/kernel/asm/transactions/type_0.asm:type_0_compute_signed_data", "evm_arithmetization/src/cpu/kernel/asm/transactions/common_decoding.asm:decode_and_store_to", "evm_arithmetization/src/cpu/kernel/asm/transactions/common_decoding.asm:decode_and_store_data", "evm_arithmetization/src/cpu/kernel/asm/transactions/common_decoding.asm:decode_and_store_s"]}
{"id": "C127", "title": "The transaction that is executed is the one in the transaction trie", "statement": "Whatever the prover supplies for a transaction, the bytes that the kernel executes are those that it inserts in the transaction trie under the key of the transaction, as one leaf with their length; the first byte decides the kind of transaction; nothing else in memory changes.", "quantifier": "all hints of the prover (length and words), all memory contents, all legacy transactions for the whole path to signature recovery", "why_tests_cant": "tests run an honest prover; what a prover can do with the length it gives is a statement about all hints", "anchors": ["evm_arithmetization/src/cpu/kernel/asm/rlp/read_to_memory.asm:read_rlp_to_memory", "evm_arithmetization/src/cpu/kernel/asm/transactions/router.asm:route_txn", "evm_arithmetization/src/cpu/kernel/asm/transactions/router.asm:update_txn_trie", "evm_arithmetization/src/cpu/kernel/asm/transactions/router.asm:read_txn_from_memory"]}
{"id": "C128", "title": "Transactions with an access list or with two fees are executed as signed", "statement": "For a transaction of EIP-2930 or EIP-1559, the kernel takes the sender from a signature over exactly the type byte and the encoded fields, and stores for execution exactly those fields and data; a high s, a recipient of a wrong length and a failed recovery are refused; the signed bytes determine all fields, and are those of no transaction of another kind.", "quantifier": "all such transactions, all memory contents and hints", "why_tests_cant": "tests decode a few transactions; that no hint and no encoding makes the kernel execute something else than was signed is about all of them", "anchors": ["evm_arithmetization/src/cpu/kernel/asm/transactions/type_1.asm:process_type_1_txn", "evm_arithmetization/src/cpu/kernel/asm/transactions/type_2.asm:process_type_2_txn", "evm_arithmetization/src/cpu/kernel/asm/transactions/common_decoding.asm:decode_and_store_access_list"]}
{"id": "C129", "title": "An access list makes warm exactly what it lists, at the price of EIP-2930", "statement": "Reading the access list of a transaction marks exactly the listed addresses and storage keys as accessed, next to those that were; adds 2400 gas for each address and 1900 for each key to the cost of the list; records as the original value of each listed key what storage holds; and leaves the rest of the transaction alone.", "quantifier": "all access lists (any number of entries and keys, with repetitions), all accessed sets and storage contents, all hints of the prover", "why_tests_cant": "tests read a list or two with an honest prover; the sets, the cost and the values are claims about every list, every earlier state and every hint", "anchors": ["evm_arithmetization/src/cpu/kernel/asm/transactions/common_decoding.asm:decode_and_store_access_list", "evm_arithmetization/src/cpu/kernel/asm/transactions/common_decoding.asm:insert_accessed_storage_keys_with_original_value", "evm_arithmetization/src/cpu/kernel/asm/transactions/common_decoding.asm:sload_with_addr", "evm_arithmetization/src/cpu/kernel/asm/core/access_lists.asm:insert_accessed_addresses", "evm_arithmetization/src/cpu/kernel/asm/core/access_lists.asm:insert_accessed_storage_keys"]}
{"id": "C130", "title": "The sender of blobs pays for them at the block's price, and at most what they agreed to", "statement": "A blob transaction (EIP-4844) is executed only if it has at least one blob and the versioned hash of each begins with 1. The hashes are stored in their order. Before it is executed its sender loses 2^17 times the number of blobs times one price, given by the block, which is at most the max_fee_per_blob_gas of the transaction; without that balance there is no proof.", "quantifier": "all lists of hashes, all fees, all balances, all states of the accounts, all inputs of the prover", "why_tests_cant": "tests run with the price the honest prover computes; that no other price can be charged is a claim about every prover", "anchors": ["evm_arithmetization/src/cpu/kernel/asm/transactions/type_3.asm:store_origin", "evm_arithmetization/src/cpu/kernel/asm/transactions/type_3.asm:compute_blob_gas_fee", "evm_arithmetization/src/cpu/kernel/asm/transactions/common_decoding.asm:decode_and_store_blob_versioned_hashes", "evm_arithmetization/src/generation/prover_input.rs:run_blobbasefee"]}
{"id": "C131", "title": "A transaction that is rejected costs its sender nothing", "statement": "When the kernel rejects a blob transaction because of its nonce, fees, gas limit or chain, or because its sender is a contract, no account is changed: in particular the sender has paid no fee for blobs.", "quantifier": "all transactions, all numbers of blobs, all prices of blob gas, all states of the accounts, all inputs of the prover", "why_tests_cant": "tests run blob transactions that are executed; what every rejected one leaves behind is a claim about all of them", "anchors": ["evm_arithmetization/src/cpu/kernel/asm/transactions/type_3.asm:store_origin", "evm_arithmetization/src/cpu/kernel/asm/core/process_txn.asm:process_normalized_txn", "evm_arithmetization/src/cpu/kernel/asm/core/process_txn.asm:invalid_txn", "evm_arithmetization/src/cpu/kernel/asm/core/transfer.asm:deduct_eth"]}
{"id": "C132", "title": "After refusing a transaction the kernel goes on where it was", "statement": "A transaction that the kernel refuses while reading it (a recipient that is no address, a blob transaction without blobs) is one without effect: the loop over the transactions goes on with the gas used so far, the number of the transaction and its key as they were, without success and with all the gas left over.", "quantifier": "all transactions with such a recipient or without blobs, all contents of the stack below", "why_tests_cant": "tests of the kernel have no transaction that is refused while being read; the shape of the stack after each of them is a claim about all", "anchors": ["evm_arithmetization/src/cpu/kernel/asm/main.asm:txn_loop_after", "evm_arithmetization/src/cpu/kernel/asm/core/process_txn.asm:invalid_txn", "evm_arithmetization/src/cpu/kernel/asm/core/process_txn.asm:invalid_txn_2", "evm_arithmetization/src/cpu/kernel/asm/transactions/common_decoding.asm:decode_and_store_to", "evm_arithmetization/src/cpu/kernel/asm/transactions/common_decoding.asm:decode_and_store_blob_versioned_hashes"]}
{"id": "C133", "title": "Blob transactions are executed as signed", "statement": "Reading a blob transaction (type 3, EIP-4844) stores every field as it is in the transaction, the versioned hashes in their order and the access list as EIP-2930 says, and the sender is recovered from the signature over keccak256(3 || rlp(the eleven fields)). Two blob transactions with the same signed bytes agree in all but the signature, and no signature is good for a blob transaction and one of another type.", "quantifier": "all blob transactions up to 2^32 bytes, all access lists, all lists of hashes, all inputs of the prover", "why_tests_cant": "tests read a few transactions; that no field, hash or hint can lead to other fields or another signed message is a claim about all of them", "anchors": ["evm_arithmetization/src/cpu/kernel/asm/transactions/type_3.asm:process_type_3_txn", "evm_arithmetization/src/cpu/kernel/asm/transactions/type_3.asm:type_3_compute_signed_data", "evm_arithmetization/src/cpu/kernel/asm/transactions/common_decoding.asm:decode_and_store_blob_versioned_hashes", "evm_arithmetization/src/cpu/kernel/asm/transactions/common_decoding.asm:decode_and_store_access_list"]}
{"id": "C134", "title": "Addresses of new contracts", "statement": "The address the kernel computes for CREATE is the low 160 bits of keccak256(rlp([sender, nonce])), with the sender as twenty bytes, and for CREATE2 of keccak256(0xff || sender || salt || hash of the code). No input of the prover leads to another address. Different senders or nonces (and senders, salts or hashes) never have the same bytes hashed, and no bytes are hashed for both instructions.", "quantifier": "all senders below 2^160, nonces, salts and hashes, all states of the memory, all inputs of the prover", "why_tests_cant": "tests compute a few addresses; that leading zeros, long nonces and wrong hints never give another address is a claim about all of them", "anchors": ["evm_arithmetization/src/cpu/kernel/asm/core/create_addresses.asm:get_create_address", "evm_arithmetization/src/cpu/kernel/asm/core/create_addresses.asm:get_create2_address", "evm_arithmetization/src/cpu/kernel/asm/rlp/encode.asm:encode_rlp_fixed", "evm_arithmetization/src/cpu/kernel/asm/rlp/encode_rlp_scalar.asm:encode_rlp_scalar"]}
{"id": "C135", "title": "Logs are kept as they were emitted", "statement": "When a contract emits a log with up to four topics, the kernel adds to the logs of the transaction, after those that are there, a record with the address, the topics in their order and exactly the bytes of the contract's memory the instruction names, together with the length of the RLP the log has in the receipt; it adds that length to the length of the RLP of all logs, notes in the journal how to take the log back, and changes nothing else. No input of the prover leads to another record or length. The records determine the logs and their order.", "quantifier": "all addresses, lists of at most four topics, offsets and lengths, all states of the memory, all numbers of logs before, all inputs of the prover", "why_tests_cant": "tests emit a few logs of a few sizes; that every combination of lengths gives the right header sizes, and that no hint of the prover changes them, is a claim about all of them", "anchors": ["evm_arithmetization/src/cpu/kernel/asm/core/log.asm:log_n_entry", "evm_arithmetization/src/cpu/kernel/asm/core/log.asm:log_after_topics", "evm_arithmetization/src/cpu/kernel/asm/core/log.asm:rlp_data_len", "evm_arithmetization/src/cpu/kernel/asm/journal/log.asm:journal_add_log"]}
{"id": "C136", "title": "LOG0 to LOG4", "statement": "A LOG instruction with l topics is refused in a static call and when its gas, 375 + 375*l + 8 per byte of data + the growth of the memory it reads, exceeds what is left, and in no other case. Otherwise exactly that gas is charged, the operands are taken from the stack in the order of the instruction, and the log of the running account is added to those of the transaction. An offset beyond what memory can have does not matter when there is no data.", "quantifier": "all offsets, lengths and topics below 2^256, all gas counters and limits up to 2^32, all states of the memory, all inputs of the prover", "why_tests_cant": "tests run LOG with a few sizes; the boundaries of gas and of the offsets, and the order of up to four topics with two operands, are claims about all values", "anchors": ["evm_arithmetization/src/cpu/kernel/asm/core/log.asm:sys_log0", "evm_arithmetization/src/cpu/kernel/asm/core/log.asm:sys_log4", "evm_arithmetization/src/cpu/kernel/asm/core/log.asm:log2_after_mem_gas", "evm_arithmetization/src/cpu/kernel/asm/memory/metadata.asm:update_mem_words"]}
{"id": "C137", "title": "The Bloom filter of a transaction has exactly the bits of its logs", "statement": "The kernel's computation of the Bloom filter sets, for the address of every log of the transaction and for each of its topics, the three bits numbered by the low eleven bits of the first three pairs of bytes of its keccak256 hash, in the byte and at the place Ethereum gives to these numbers, leaves bits that are set, and sets no other bit. It changes neither the logs nor anything else but the bytes it hashes.", "quantifier": "all lists of logs the segments can hold, with any addresses and topics, all contents of the filter before, all hash functions", "why_tests_cant": "tests compare the filters of a few transactions; a missed topic or a wrong bit for some hashes would not show", "anchors": ["evm_arithmetization/src/cpu/kernel/asm/bloom_filter.asm:logs_bloom", "evm_arithmetization/src/cpu/kernel/asm/bloom_filter.asm:add_to_bloom", "evm_arithmetization/src/cpu/kernel/asm/bloom_filter.asm:bloom_byte_indices", "evm_arithmetization/src/cpu/kernel/asm/bloom_filter.asm:bloom_write_bit"]}
{"id": "C138", "title": "The receipt of a transaction says what happened", "statement": "The receipt the kernel hands to the insertion in the trie of receipts consists of the type of the transaction if it has one, the length of its RLP encoding without header, the status, the gas used by the block so far, that is the gas used before plus the gas limit less the gas left, the 256 bytes of the filter with the bits of its logs added, and the logs as they were emitted and in their order; a transaction that failed has no logs in its receipt. If more gas is left than the limit no proof is made. Afterwards the filter is cleared, nothing else changes, and the gas used so far is returned.", "quantifier": "all statuses, gas amounts, types and lists of logs that fit in the segments, all contents of the filter before, all hints of the prover, all hash functions", "why_tests_cant": "tests compare the receipts of a few transactions; a wrong length for some gas amount or some size of logs, or logs kept after a failure, would not show", "anchors": ["evm_arithmetization/src/cpu/kernel/asm/core/create_receipt.asm:process_receipt", "evm_arithmetization/src/cpu/kernel/asm/core/create_receipt.asm:compute_cumulative_gas", "evm_arithmetization/src/cpu/kernel/asm/core/create_receipt.asm:failed_receipt", "evm_arithmetization/src/cpu/kernel/asm/core/create_receipt.asm:receipt_nonzero_type"]}
