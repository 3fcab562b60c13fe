{
 "claims": [
  {
   "property": "C01",
   "status": "proved",
   "theorems": [
    "Verif.Mpt.C01_get_after_history",
    "Verif.Mpt.C01_get_after_history_prefixFree"
   ],
   "note": "fixed-length keys; second theorem for prefix-free keys"
  },
  {
   "property": "C02",
   "status": "proved",
   "theorems": [
    "Verif.Mpt.C02_delete"
   ],
   "note": "over prefix-free key sets; for other keys see C05"
  },
  {
   "property": "C03",
   "status": "proved",
   "theorems": [
    "Verif.Mpt.C03_history_independent"
   ],
   "note": "structural equality of the resulting tries"
  },
  {
   "property": "C04",
   "status": "proved",
   "theorems": [
    "Verif.Mpt.C04_items",
    "Verif.Mpt.C04_items_any"
   ],
   "note": "the stack machine iterator"
  },
  {
   "property": "C05",
   "status": "partial",
   "theorems": [
    "Verif.Mpt.C05_insert_any_key_partial",
    "Verif.Mpt.C05_violated_get_prefix",
    "Verif.Mpt.C05_violated_get_panics",
    "Verif.Mpt.C05_violated_insert_wrong_key",
    "Verif.Mpt.C05_violated_delete_loses_value",
    "Verif.Mpt.C05_violated_delete_panics",
    "Verif.Mpt.C05_violated_delete_absent"
   ],
   "note": "the code violates the property: counterexamples proved; inserts proved under an exact guard"
  },
  {
   "property": "C06",
   "status": "proved",
   "theorems": [
    "Verif.Mpt.C06_partial_like_full",
    "Verif.Mpt.C06_delete_value"
   ],
   "note": "default (Reject) strategy; whole histories"
  },
  {
   "property": "C07",
   "status": "proved",
   "theorems": [
    "Verif.Mpt.C07_subset",
    "Verif.Mpt.C07_subset_succeeds",
    "Verif.Mpt.C07_subset_exact"
   ],
   "note": "the extraction algorithm refines a one-line specification (prune); root and data preserved; succeeds exactly when no key runs into a hash node"
  },
  {
   "property": "C08",
   "status": "partial",
   "theorems": [
    "Verif.Mpt.C08_violated_root_flag",
    "Verif.Mpt.C08_equal_if_nonempty_partial",
    "Verif.Mpt.C08_roots_and_data_partial"
   ],
   "note": "the code violates equality when an empty key set follows a non-empty one; equality proved otherwise, and root/data always"
  },
  {
   "property": "C09",
   "status": "proved",
   "theorems": [
    "Verif.Mpt.C09_root_commits",
    "Verif.Mpt.C09_root_commits_partial_tries",
    "Verif.Mpt.C09_different_contents"
   ],
   "note": "no collision among the strings hashed by the two tries"
  },
  {
   "property": "C10",
   "status": "partial",
   "theorems": [
    "Verif.Mpt.C10_cache_fresh_partial",
    "Verif.Mpt.C10_subset_through_cache_partial",
    "Verif.Mpt.C10_violated_clone",
    "Verif.Mpt.C10_violated_extend"
   ],
   "note": "violated by clones sharing the cache cell and by failing extend; proved for every run avoiding the two"
  },
  {
   "property": "C11",
   "status": "proved",
   "theorems": [
    "Verif.Nibbles.C11_representation",
    "Verif.Nibbles.C11_read",
    "Verif.Nibbles.C11_pop",
    "Verif.Nibbles.C11_push",
    "Verif.Nibbles.C11_split",
    "Verif.Nibbles.C11_compare"
   ],
   "note": "packed representation refines nibble lists"
  },
  {
   "property": "C12",
   "status": "proved",
   "theorems": [
    "Verif.Nibbles.C12_hex_prefix",
    "Verif.Nibbles.C12_injective"
   ],
   "note": "at the packed level; Mpt.hexPrefix is shown to be the Yellow Paper's HP by C49"
  },
  {
   "property": "C13",
   "status": "proved",
   "theorems": [
    "Verif.Mpt.C13_path_for_query"
   ],
   "note": ""
  },
  {
   "property": "C14",
   "status": "proved",
   "theorems": [
    "Verif.Mpt.C14_reporting_remove",
    "Verif.Mpt.C14_after_history",
    "Verif.Mpt.C14_exclusive"
   ],
   "note": ""
  },
  {
   "property": "C15",
   "status": "partial",
   "theorems": [
    "Verif.World.C15_txn_key",
    "Verif.World.C15_hash_key",
    "Verif.World.C15_slot_and_address_keys",
    "Verif.World.C15_txn_trie_in_order_partial",
    "Verif.World.C15_violated_txn_out_of_order"
   ],
   "note": "keys proved; map semantics of the transaction trie proved for inserts in increasing order (what the decoder does) and violated out of order"
  },
  {
   "property": "C16",
   "status": "proved",
   "theorems": [
    "Verif.Smt.C16_map"
   ],
   "note": ""
  },
  {
   "property": "C17",
   "status": "partial",
   "theorems": [
    "Verif.Smt.C17_violated_empty_tree",
    "Verif.Smt.C17_absent_partial"
   ],
   "note": "violated: get panics when the path of the absent key ends in an empty subtree; the partial theorem says exactly when it returns 0"
  },
  {
   "property": "C18",
   "status": "proved",
   "theorems": [
    "Verif.Smt.C18_root",
    "Verif.Smt.C18_history_independent",
    "Verif.Smt.C18_root_binding"
   ],
   "note": "root is the Merkle root of the final map, and (no collision) binds it"
  },
  {
   "property": "C19",
   "status": "proved",
   "theorems": [
    "Verif.Smt.C19_split",
    "Verif.Smt.C19_join",
    "Verif.Smt.C19_split_injective"
   ],
   "note": ""
  },
  {
   "property": "C20",
   "status": "proved",
   "theorems": [
    "Verif.Smt.Bits.C20_representation",
    "Verif.Smt.Bits.C20_make",
    "Verif.Smt.Bits.C20_get",
    "Verif.Smt.Bits.C20_push",
    "Verif.Smt.Bits.C20_push_full",
    "Verif.Smt.Bits.C20_pop",
    "Verif.Smt.Bits.C20_add",
    "Verif.Smt.Bits.C20_common_prefix",
    "Verif.Smt.Bits.C20_split"
   ],
   "note": "push of a 257th bit silently drops the first one (C20_push_full)"
  },
  {
   "property": "C21",
   "status": "proved",
   "theorems": [
    "Verif.Smt.Code.C21_padding",
    "Verif.Smt.Code.C21_hash_binds"
   ],
   "note": "no collision among the permutation inputs of the two codes"
  },
  {
   "property": "C22",
   "status": "proved",
   "theorems": [
    "Verif.Smt.C22_rehash",
    "Verif.Smt.C22_rehash_partial_state"
   ],
   "note": ""
  },
  {
   "property": "C23",
   "status": "proved",
   "theorems": [
    "Verif.Decoder.C23_batches"
   ],
   "note": "also exact sizes of all but the last batch"
  },
  {
   "property": "C24",
   "status": "proved",
   "theorems": [
    "Verif.Decoder.C24_counters"
   ],
   "note": "for every world implementation"
  },
  {
   "property": "C25",
   "status": "proved",
   "theorems": [
    "Verif.Decoder.C25_withdrawals_once",
    "Verif.Decoder.C54_block"
   ],
   "note": "in the last input only, in wei; credited in the state the last root commits to"
  },
  {
   "property": "C26",
   "status": "partial",
   "theorems": [
    "Verif.Decoder.C26_inputs_linked",
    "Verif.Decoder.C26_linked_partial",
    "Verif.Decoder.C26_violated_create_storage"
   ],
   "note": "proved for everything the decoder does; the public world API lets create_storage break the link"
  },
  {
   "property": "C27",
   "status": "proved",
   "theorems": [
    "Verif.Wire.C27_key_roundtrip",
    "Verif.Wire.C27_key_exact",
    "Verif.Wire.Type1.C27_execute_exact",
    "Verif.Wire.Type1.C27_execute_roundtrip",
    "Verif.Wire.Type1.C27_storage",
    "Verif.Wire.Type1.C27_frontend",
    "Verif.Wire.Type1.C27_world",
    "Verif.Wire.Type1.C27_root",
    "Verif.Wire.Type1.C27_rejects",
    "Verif.Wire.Type1.C27_bytes"
   ],
   "note": "canonical tries; execution is characterised exactly"
  },
  {
   "property": "C28",
   "status": "proved",
   "theorems": [
    "Verif.Wire.Type2.C28_fold_exact",
    "Verif.Wire.Type2.C28_leftover",
    "Verif.Wire.Type2.C28_missing",
    "Verif.Wire.Type2.C28_frontend",
    "Verif.Wire.Type2.C28_root"
   ],
   "note": "exactly the readable preorder streams are decoded; for a witness of a full state the decoded world has its root"
  },
  {
   "property": "C29",
   "status": "proved",
   "theorems": [
    "Verif.Decoder.C29_code_table",
    "Verif.Decoder.C29_code_supplied"
   ],
   "note": ""
  },
  {
   "property": "C30",
   "status": "partial",
   "theorems": [
    "Verif.Zero.C30_intervals_partial",
    "Verif.Zero.C30_violated",
    "Verif.Zero.C30_unresolved",
    "Verif.Zero.C30_follow"
   ],
   "note": "violated: a number and a hash naming the same block are rejected, and an end of 2^64-1 overflows; proved in all other cases"
  },
  {
   "property": "C31",
   "status": "partial",
   "theorems": [
    "Verif.Zero.C31_parse_partial",
    "Verif.Zero.C31_roundtrip",
    "Verif.Zero.C31_violated"
   ],
   "note": "violated: anything after a second '..' is ignored; proved for strings with a single separator"
  },
  {
   "property": "C32",
   "status": "proved",
   "theorems": [
    "Verif.Zero.C32_retry",
    "Verif.Zero.C32_first_success"
   ],
   "note": ""
  },
  {
   "property": "C33",
   "status": "proved",
   "theorems": [
    "Verif.Zero.C33_order",
    "Verif.Zero.C33_succeeds",
    "Verif.Zero.C33_schedule_independent"
   ],
   "note": "paladin's fold is assumed to combine neighbours of the stream in some bracketing; every bracketing and completion order is covered"
  },
  {
   "property": "C34",
   "status": "proved",
   "theorems": [
    "Verif.Zero.Chain.C34_chain",
    "Verif.Zero.Chain.C34_pool",
    "Verif.Zero.Chain.C34_files",
    "Verif.Zero.Chain.C34_progress",
    "Verif.Zero.Chain.C34_terminates",
    "Verif.Zero.Chain.C34_complete"
   ],
   "note": "transition system of the whole run; every interleaving"
  },
  {
   "property": "C35",
   "status": "proved",
   "theorems": [
    "Verif.Stark.Arith.C35_add",
    "Verif.Stark.Arith.C35_sub",
    "Verif.Stark.Arith.C35_lt",
    "Verif.Stark.Arith.C35_gt"
   ],
   "note": "for every accepted table; that cells have 16 bits is derived from the range counter and its lookup"
  },
  {
   "property": "C36",
   "status": "proved",
   "theorems": [
    "Verif.Stark.Arith.C36_mul"
   ],
   "note": "for every accepted table"
  },
  {
   "property": "C37",
   "status": "partial",
   "theorems": [
    "Verif.Stark.Arith.C37_mod",
    "Verif.Stark.Arith.C37_div_partial",
    "Verif.Stark.Arith.C37_div_by_zero",
    "Verif.Stark.Arith.C37_div_violated"
   ],
   "note": "MOD in full; DIV violated for the divisor zero: the table accepts 5 / 0 = 5"
  },
  {
   "property": "C38",
   "status": "proved",
   "theorems": [
    "Verif.Stark.Arith.C38_addmod",
    "Verif.Stark.Arith.C38_mulmod",
    "Verif.Stark.Arith.C38_submod",
    "Verif.Stark.Arith.C38_addfp254",
    "Verif.Stark.Arith.C38_mulfp254",
    "Verif.Stark.Arith.C38_subfp254"
   ],
   "note": "including modulus zero and negative differences"
  },
  {
   "property": "C39",
   "status": "proved",
   "theorems": [
    "Verif.Stark.Arith.C39_byte"
   ],
   "note": "all indices"
  },
  {
   "property": "C40",
   "status": "partial",
   "theorems": [
    "Verif.Stark.Arith.C40_shl",
    "Verif.Stark.Arith.C40_shr_partial",
    "Verif.Stark.Arith.C40_shr_long",
    "Verif.Stark.Arith.C40_shr_violated"
   ],
   "note": "SHL in full; SHR violated for shifts by 256 or more: the table accepts 5 >> 256 = 5"
  },
  {
   "property": "C41",
   "status": "proved",
   "theorems": [
    "Verif.Stark.Logic.C41_logic"
   ],
   "note": "for every accepted table and every operation it exports"
  },
  {
   "property": "C42",
   "status": "partial",
   "theorems": [
    "Verif.Stark.Memory.C42_reads_partial",
    "Verif.Stark.Memory.C42_reads",
    "Verif.Stark.Memory.C42_violated"
   ],
   "note": "violated: a read in the first row of the table may return anything; proved for all other reads, and in full when the first row lies in a pre-initialised segment"
  },
  {
   "property": "C43",
   "status": "partial",
   "theorems": [
    "Verif.Stark.Memory.C43_selected_partial",
    "Verif.Stark.Memory.C43_once",
    "Verif.Stark.Memory.C43_stale_listed",
    "Verif.Stark.Memory.C43_violated",
    "Verif.Stark.Memory.C43_violated_dropped",
    "Verif.Stark.Memory.C43_violated_old_value",
    "Verif.Stark.Memory.C43_violated_stale",
    "Verif.Stark.Memory.C43_violated_weights"
   ],
   "note": "violated: a dummy read drops a value, an overwritten value can be handed over in pre-initialised segments, the prover alone decides which contexts are stale; proved for the selection at the last row of an address"
  },
  {
   "property": "C44",
   "status": "partial",
   "theorems": [
    "Verif.Kernel.C44_optimizer_partial",
    "Verif.Kernel.C44_passes_partial",
    "Verif.Kernel.C44_violated",
    "Verif.Kernel.C44_violated_byte",
    "Verif.Kernel.C44_violated_de_morgan",
    "Verif.Kernel.C44_violated_labels"
   ],
   "note": "violated: constant propagation of BYTE counts bytes from the wrong end, De Morgan's rule is wrong for DUP1, a name declared as local and as global label; proved in all other cases for terminating and diverging programs with jumps"
  },
  {
   "property": "C45",
   "status": "partial",
   "theorems": [
    "Verif.Kernel.C45_terminates_partial",
    "Verif.Kernel.C45_no_panic_partial",
    "Verif.Kernel.C45_violated"
   ],
   "note": "termination and length in full; violated in that a constant shift by 2^64 or more panics"
  },
  {
   "property": "C46",
   "status": "proved",
   "theorems": [
    "Verif.Kernel.C46_stack"
   ],
   "note": "for every pattern for which code is produced; assembling panics for DUPn and SWAPn with n > 16"
  },
  {
   "property": "C47",
   "status": "partial",
   "theorems": [
    "Verif.Mpt.C47_delete_failures_partial",
    "Verif.Mpt.C47_violated_delete_panics"
   ],
   "note": "violated: the error path panics; failures characterised otherwise"
  },
  {
   "property": "C48",
   "status": "partial",
   "theorems": [
    "Verif.Mpt.C48_violated_orphaned_leaf",
    "Verif.Mpt.C48_hidden_branches_partial"
   ],
   "note": "violated when the hash hides a leaf or extension; proved when it hides branches"
  },
  {
   "property": "C49",
   "status": "proved",
   "theorems": [
    "Verif.Yellow.C49_yellow_paper_root"
   ],
   "note": "against an independent relational transcription of appendix D"
  },
  {
   "property": "C50",
   "status": "proved",
   "theorems": [
    "Verif.Nibbles.C50_bytes",
    "Verif.Nibbles.C50_h256",
    "Verif.Nibbles.C50_integers",
    "Verif.Nibbles.C50_text"
   ],
   "note": ""
  },
  {
   "property": "C51",
   "status": "partial",
   "theorems": [
    "Verif.Decoder.C51_pre_execution_once_partial",
    "Verif.Decoder.C51_violated_empty_block"
   ],
   "note": "violated: runs twice for a block without transactions; proved once for all other blocks"
  },
  {
   "property": "C52",
   "status": "proved",
   "theorems": [
    "Verif.Decoder.C52_roots_chain"
   ],
   "note": "MPT worlds"
  },
  {
   "property": "C53",
   "status": "partial",
   "theorems": [
    "Verif.Decoder.C53_beacon_roots",
    "Verif.Decoder.C53_cdk_partial",
    "Verif.Decoder.C53_cdk_succeeds",
    "Verif.Decoder.C53_violated_cdk_root"
   ],
   "note": "Ethereum part proved; CDK part violated: the decoder stores the root after the block number and timestamp writes, not the root before the block (which the kernel stores)"
  },
  {
   "property": "C54",
   "status": "proved",
   "theorems": [
    "Verif.Decoder.C54_trace",
    "Verif.Decoder.C54_block",
    "Verif.Decoder.C54_block_ethereum"
   ],
   "note": "MPT worlds"
  },
  {
   "property": "C55",
   "status": "proved",
   "theorems": [
    "Verif.Decoder.C55_witness_complete"
   ],
   "note": "MPT worlds; keccak does not collide on the touched addresses"
  },
  {
   "property": "C56",
   "status": "proved",
   "theorems": [
    "Verif.Smt.C56_partial_updates",
    "Verif.Smt.C56_partial_get"
   ],
   "note": ""
  },
  {
   "property": "C57",
   "status": "proved",
   "theorems": [
    "Verif.Smt.C57_build",
    "Verif.Smt.C57_updates"
   ],
   "note": ""
  },
  {
   "property": "C58",
   "status": "proved",
   "theorems": [
    "Verif.Smt.C58_pruned_lookup"
   ],
   "note": ""
  },
  {
   "property": "C59",
   "status": "proved",
   "theorems": [
    "Verif.Smt.Keys.C59_keys_distinct",
    "Verif.Smt.Keys.C59_layout"
   ],
   "note": ""
  },
  {
   "property": "C60",
   "status": "proved",
   "theorems": [
    "Verif.Wire.C60_parse_roundtrip",
    "Verif.Wire.C60_rejects",
    "Verif.Wire.C60_nonempty",
    "Verif.Wire.C27_key_roundtrip"
   ],
   "note": "the CBOR reader is a parameter with its RFC 8949 meaning as hypothesis (Reads), met by Cbor.rfc"
  },
  {
   "property": "C61",
   "status": "partial",
   "theorems": [
    "Verif.World.C61_map",
    "Verif.World.C61_hash_conversion",
    "Verif.World.C61_reads",
    "Verif.World.C61_root",
    "Verif.World.C61_updates_partial",
    "Verif.World.C61_violated_sibling_of_hidden_leaf"
   ],
   "note": "violated: removing the entry next to a hashed-out leaf silently gives a wrong root; proved in all other cases"
  },
  {
   "property": "C62",
   "status": "partial",
   "theorems": [
    "Verif.Zero.C62_covered_partial",
    "Verif.Zero.C62_violated"
   ],
   "note": "violated: a failing segment task is silently left out of the block proof; proved when no segment task fails"
  },
  {
   "property": "C63",
   "status": "proved",
   "theorems": [
    "Verif.Zero.Resume.C63_check",
    "Verif.Zero.Resume.C63_resume"
   ],
   "note": "overflow at the ends of u64 is a panic (wraps in release builds)"
  },
  {
   "property": "C64",
   "status": "partial",
   "theorems": [
    "Verif.Zero.Resume.C64_message_partial",
    "Verif.Zero.Resume.C64_violated"
   ],
   "note": "violated: the exit status is success whatever the verification says; only the log message is right"
  },
  {
   "property": "C65",
   "status": "partial",
   "theorems": [
    "Verif.Zero.Config.C65_digest_partial",
    "Verif.Zero.Config.C65_paths_partial",
    "Verif.Zero.Config.C65_violated"
   ],
   "note": "violated: use_test_config is not part of the name; proved for circuit sizes, kernels and kinds of file"
  },
  {
   "property": "C66",
   "status": "partial",
   "theorems": [
    "Verif.Zero.Cache.C66_cache_partial",
    "Verif.Zero.Cache.C66_violated"
   ],
   "note": "violated when runs with and without use_test_config share a directory; proved for histories of one recursion configuration, with crashes"
  },
  {
   "property": "C67",
   "status": "partial",
   "theorems": [
    "Verif.Zero.Cache.C67_tables_partial",
    "Verif.Zero.Cache.C67_violated"
   ],
   "note": "violated after a crash between the base file and the table files; proved without crashes"
  },
  {
   "property": "C68",
   "status": "proved",
   "theorems": [
    "Verif.Zero.PrevHashes.C68_from_blocks",
    "Verif.Zero.PrevHashes.C68_contract",
    "Verif.Zero.PrevHashes.C68_fetch",
    "Verif.Zero.PrevHashes.C68_previous_hashes"
   ],
   "note": "the bytecode of the eth_call is executed in a model of its instructions"
  },
  {
   "property": "C69",
   "status": "partial",
   "theorems": [
    "Verif.Zero.Provider.C69_cache_partial",
    "Verif.Zero.Provider.C69_violated",
    "Verif.Zero.Provider.C69_violated_kind"
   ],
   "note": "violated for competing blocks of one number and for requests of different kinds"
  },
  {
   "property": "C70",
   "status": "partial",
   "theorems": [
    "Verif.Stark.Arith.C70_exports_partial",
    "Verif.Stark.Arith.C70_violated",
    "Verif.Stark.Arith.C70_impersonation"
   ],
   "note": "violated: a range check row can carry any opcode, so the table exports ADD 1 1 = 3; proved if no range check row carries an arithmetic opcode and for DIV and SHR by other than zero"
  },
  {
   "property": "C71",
   "status": "proved",
   "theorems": [
    "Verif.Stark.Logic.C71_logic"
   ],
   "note": ""
  },
  {
   "property": "C72",
   "status": "partial",
   "theorems": [
    "Verif.Kernel.C72_violated"
   ],
   "note": "violated: %stack (a, b) -> (b, 7, a, 7, a) is compiled to one of two sequences depending on the iteration order of a HashMap"
  },
  {
   "property": "C73",
   "status": "partial",
   "theorems": [
    "Verif.Recursion.C73_segments_contiguous_partial",
    "Verif.Recursion.C73_violated_metadata",
    "Verif.Recursion.C73_violated_burn"
   ],
   "note": "violated: blob gas used, excess blob gas and the parent beacon root are not compared between segments, and next to a dummy the burn address is free; everything else is proved"
  },
  {
   "property": "C74",
   "status": "partial",
   "theorems": [
    "Verif.Recursion.C74_batches_linked_partial",
    "Verif.Recursion.C74_violated_checkpoint_hash"
   ],
   "note": "violated: the checkpoint hash is not connected between batches, and keys of inner proofs are not checked (C78); everything else is proved for circuits that check the keys"
  },
  {
   "property": "C75",
   "status": "partial",
   "theorems": [
    "Verif.Recursion.C75_chain_partial",
    "Verif.Recursion.Follows.time_le",
    "Verif.Recursion.C75_violated_chain_id",
    "Verif.Recursion.C75_violated_checkpoint_hash",
    "Verif.Recursion.C75_violated_roots_before"
   ],
   "note": "violated: chain id and checkpoint hash are not connected between blocks, and the roots before of a first block are free; everything else is proved for circuits that check the keys (C78)"
  },
  {
   "property": "C76",
   "status": "partial",
   "theorems": [
    "Verif.Recursion.C76_final_values_partial",
    "Verif.Recursion.C76_violated"
   ],
   "note": "violated as C75; proved in full for chains of one block, for circuits that check the keys (C78)"
  },
  {
   "property": "C77",
   "status": "proved",
   "theorems": [
    "Verif.Recursion.C77_root_of_wrapped",
    "Verif.Recursion.C77_binding",
    "Verif.Recursion.C77_complete"
   ],
   "note": "binding up to a collision of the hash"
  },
  {
   "property": "C78",
   "status": "partial",
   "theorems": [
    "Verif.Recursion.C78_intended_circuits_partial",
    "Verif.Recursion.C78_violated_forgery",
    "Verif.Recursion.C78_violated"
   ],
   "note": "violated: keys carried by proofs that are verified inside batch, block and wrapper circuits are not checked, so that a foreign circuit allows to forge any state transition; proved for segment aggregation, and for all if the keys were checked"
  },
  {
   "property": "C79",
   "status": "partial",
   "theorems": [
    "Verif.Recursion.C79_read_back_partial",
    "Verif.Recursion.C79_violated_unwritten",
    "Verif.Recursion.C79_violated_noncanonical"
   ],
   "note": "violated: without eth_mainnet three metadata fields are not written, and limbs of 2^32 and more are truncated when read; proved otherwise"
  },
  {
   "property": "C80",
   "status": "partial",
   "theorems": [
    "Verif.Recursion.Buffer.C80_read_back_partial",
    "Verif.Recursion.Buffer.C80_read_same_common",
    "Verif.Recursion.Buffer.C80_violated_common",
    "Verif.Recursion.Buffer.C80_violated_burn",
    "Verif.Recursion.Buffer.C80_violated"
   ],
   "note": "violated: only the first shrinking circuit's common data is written, and the burn address is written and read differently (cdk_erigon); proved if the shrinking circuits of a table size share their common data and without cdk_erigon"
  },
  {
   "property": "C81",
   "status": "proved",
   "theorems": [
    "Verif.Recursion.C81_same_transcript",
    "Verif.Recursion.C81_same_rows",
    "Verif.Recursion.C81_same_sum"
   ],
   "note": ""
  },
  {
   "property": "C82",
   "status": "partial",
   "theorems": [
    "Verif.Recursion.C82_transcript_binds_partial",
    "Verif.Recursion.C82_sums_bound_partial",
    "Verif.Recursion.C82_violated_forge",
    "Verif.Recursion.C82_violated"
   ],
   "note": "violated: the registers are not given to the challenger, and the word on top of the stack at the start can be chosen afterwards to reach any sums; proved for everything else"
  },
  {
   "property": "C83",
   "status": "proved",
   "theorems": [
    "Verif.Recursion.C83_completeness"
   ],
   "note": "completeness of plonky2 is assumed"
  },
  {
   "property": "C84",
   "status": "partial",
   "theorems": [
    "Verif.Recursion.Buffer.C84_cut_refused_partial",
    "Verif.Recursion.Buffer.C84_violated_dummies",
    "Verif.Recursion.Buffer.C84_violated"
   ],
   "note": "violated: an error in reading the dummy proofs is taken for their absence; cuts before them are refused"
  },
  {
   "property": "C85",
   "status": "partial",
   "theorems": [
    "Verif.Stark.Keccak.C85_permutation_partial",
    "Verif.Stark.Keccak.C85_violated_forge",
    "Verif.Stark.Keccak.C85_violated"
   ],
   "note": "violated: no constraint makes the bit columns boolean, so the first lane of the output can be chosen freely for every input; proved if the bit columns hold bits"
  },
  {
   "property": "C86",
   "status": "proved",
   "theorems": [
    "Verif.Stark.Keccak.C86_keccak",
    "Verif.Stark.Keccak.gen_bits"
   ],
   "note": "the specification of the permutation (FIPS 202, bit by bit) is tested against a known answer in Keccak/Kat.lean"
  },
  {
   "property": "C87",
   "status": "proved",
   "theorems": [
    "Verif.Stark.BytePacking.C87_row",
    "Verif.Stark.BytePacking.C87_exports",
    "Verif.Stark.BytePacking.C87_accesses"
   ],
   "note": ""
  },
  {
   "property": "C88",
   "status": "proved",
   "theorems": [
    "Verif.Stark.BytePacking.C88_table",
    "Verif.Stark.BytePacking.C88_pack",
    "Verif.Stark.BytePacking.C88_unpack",
    "Verif.Stark.BytePacking.C88_oversized"
   ],
   "note": "a list without any bytes has no table: the code leaves the table out then; C88_oversized: a word that does not fit into the length cannot be looked up"
  },
  {
   "property": "C89",
   "status": "partial",
   "theorems": [
    "Verif.Stark.Sponge.C89_violated",
    "Verif.Stark.Sponge.C89_violated_digest",
    "Verif.Stark.Sponge.C89_violated_padding",
    "Verif.Stark.Sponge.C89_violated_last_row",
    "Verif.Stark.Sponge.C89_violated_order",
    "Verif.Stark.Sponge.C89_violated_swap",
    "Verif.Stark.Sponge.C89_sponge_partial",
    "Verif.Stark.Sponge.C89_short_partial"
   ],
   "note": "false of the code: the cells of the digest are not range-checked, so any digest is accepted for any string; the padding constraints are off in the last row; blocks of a string share one timestamp and the Keccak lookups compare multisets, so permutations can be exchanged. Proved with the guards: digest cells hold bytes, permutations matched row by row (which holds if no two blocks have the same time), not the last row"
  },
  {
   "property": "C90",
   "status": "proved",
   "theorems": [
    "Verif.Stark.Sponge.Gen.C90_accepted",
    "Verif.Stark.Sponge.Gen.C90_results",
    "Verif.Stark.Sponge.Gen.C90_memory"
   ],
   "note": "tiny_keccak's permutation is taken to be the specification"
  },
  {
   "property": "C91",
   "status": "partial",
   "theorems": [
    "Verif.Stark.Cpu.C91_violated",
    "Verif.Stark.Cpu.C91_violated_user",
    "Verif.Stark.Cpu.C91_decode_partial"
   ],
   "note": "false of the code: the opcodes of the flags binary_op, ternary_op, fp254_op and shift are left to the arithmetic lookup, which does not say for which flag; ADD runs as a ternary operation, and user code runs MULFP254. Proved for all other flags, and the mode of fp254_op and SUBMOD"
  },
  {
   "property": "C92",
   "status": "partial",
   "theorems": [
    "Verif.Stark.Cpu.C92_violated",
    "Verif.Stark.Cpu.C92_violated_mode",
    "Verif.Stark.Cpu.C92_violated_len",
    "Verif.Stark.Cpu.C92_registers_partial",
    "Verif.Stark.Cpu.C92_syscall"
   ],
   "note": "false of the code: the next program counter and mode are free after PUSH and the 32-byte memory operations, the next mode after JUMP and JUMPI, the next stack length after MSTORE_GENERAL. Proved for everything else, and for system calls and exceptions"
  },
  {
   "property": "C93",
   "status": "partial",
   "theorems": [
    "Verif.Stark.Cpu.C93_violated",
    "Verif.Stark.Cpu.C93_idle",
    "Verif.Stark.Cpu.C93_violated_start",
    "Verif.Stark.Cpu.C93_end_partial"
   ],
   "note": "false of the code: nothing but the clock is constrained in the first row; a table that executes nothing is accepted. Proved: clock and end"
  },
  {
   "property": "C94",
   "status": "partial",
   "theorems": [
    "Verif.Stark.Cpu.C94_violated",
    "Verif.Stark.Cpu.C94_forge",
    "Verif.Stark.Cpu.C94_violated_pop",
    "Verif.Stark.Cpu.C94_ops_partial"
   ],
   "note": "false of the code: a padding row may write anything anywhere through the partial channel; after POP (MSTORE_GENERAL, context operations) the prover chooses whether the new top is read; operations that push leave channels free. Proved for all instructions, given that these channels are as generated (Guard)"
  },
  {
   "property": "C95",
   "status": "partial",
   "theorems": [
    "Verif.Stark.Cpu.C95_violated",
    "Verif.Stark.Cpu.C95_machine_partial"
   ],
   "note": "false of the code: when the displacement is 2^32 or more the factor of a shift is not read and not constrained, so SHL and SHR give what the prover likes. Proved for all instructions listed, given that channels are as generated (Guard, C94) and the guards of the arithmetic table (C70): no impersonating range checks, no division by zero, SHR by less than 256, SHL by less than 2^32. Left out: PUSH, the 32-byte memory operations and KECCAK_GENERAL, whose lookups are not modelled, and SET_CONTEXT"
  },
  {
   "property": "C96",
   "status": "proved",
   "theorems": [
    "Verif.Stark.Memory.C96_generation"
   ],
   "note": "for histories as generation makes them: two operations on an address have different times, contexts and segments are numbered below the number of operations, times are below 2^35 (the sizes fill_gaps presupposes)"
  },
  {
   "property": "C97",
   "status": "proved",
   "theorems": [
    "Verif.Stark.Memory.C97_handover"
   ],
   "note": "the kernel's code and shift table are not written to and context 0 is not pruned, as in the kernel; at each address the operations are logged in the order of their times"
  },
  {
   "property": "C98",
   "status": "proved",
   "theorems": [
    "Verif.Stark.Arith.C98_generation",
    "Verif.Stark.Arith.C98_exports",
    "Verif.Stark.Arith.C98_binary",
    "Verif.Stark.Arith.C98_ternary"
   ],
   "note": "operations as their constructors make them; range checks carry an opcode below 256; the i64 and u64 arithmetic of generation is modelled by integers"
  },
  {
   "property": "C99",
   "status": "partial",
   "theorems": [
    "Verif.Stark.Memory.C99_sequence",
    "Verif.Stark.Memory.C99_sequence_partial",
    "Verif.Stark.Memory.C99_violated"
   ],
   "note": "as for C42 the initial value of the address in the table's first row is free; in full when that row is in a segment filled beforehand, such as the kernel's code"
  },
  {
   "property": "C100",
   "status": "proved",
   "theorems": [
    "Verif.Kasm.C100_signed_arithmetic"
   ],
   "note": "assembly of signed.asm run by the machine of Kasm/Machine.lean"
  },
  {
   "property": "C101",
   "status": "proved",
   "theorems": [
    "Verif.Kasm.C101_exp"
   ],
   "note": "assembly of exp.asm"
  },
  {
   "property": "C102",
   "status": "partial",
   "theorems": [
    "Verif.Kasm.C102_reads_violated",
    "Verif.Kasm.C102_reads_partial",
    "Verif.Kasm.exists_accHint",
    "Verif.Kasm.exists_slotHint"
   ],
   "note": "false of the code: naming the start of the list makes every account look absent and every slot look empty (C102_reads_violated); partial: right for the right hint, and for every hint right or 'absent'"
  },
  {
   "property": "C103",
   "status": "proved",
   "theorems": [
    "Verif.Kasm.C103_updates",
    "Verif.Kasm.exists_accHint",
    "Verif.Kasm.exists_accPred",
    "Verif.Kasm.exists_slotHint",
    "Verif.Kasm.exists_slotPred"
   ],
   "note": "assembly of linked_list.asm, arbitrary prover inputs; the exists_ theorems say that a right hint exists"
  },
  {
   "property": "C104",
   "status": "partial",
   "theorems": [
    "Verif.Kasm.C104_removal_violated",
    "Verif.Kasm.C104_removal_partial"
   ],
   "note": "false of the code: the node to start from is not checked to be the one before the account's slots (C104_removal_violated); partial: nothing else changes for any hint, and everything is removed for the right one"
  },
  {
   "property": "C105",
   "status": "partial",
   "theorems": [
    "Verif.Kasm.C105_access_violated",
    "Verif.Kasm.C105_access_partial",
    "Verif.Kasm.exists_addrHint",
    "Verif.Kasm.exists_keyHint",
    "Verif.Kasm.exists_addrPred",
    "Verif.Kasm.exists_keyPred"
   ],
   "note": "false of the code: the hint is bounded from above only, so it may name any lower memory of the kernel's context that happens to hold the address (C105_access_violated); partial: everything holds for every hint that is not below the list"
  },
  {
   "property": "C106",
   "status": "partial",
   "theorems": [
    "Verif.Kasm.C106_jumpdests_violated",
    "Verif.Kasm.run_analysis_wrap",
    "Verif.Kasm.C106_jumpdests_partial",
    "Verif.Kasm.Clean.boundary"
   ],
   "note": "false of the code: the prover's position is not bounded, and one that wraps around at 2^256 begins the walk in memory of a lower context, from where words of the caller's stack can lead it to any byte 0x5b (C106_jumpdests_violated); partial: everything holds for every prover whose positions do not wrap around"
  },
  {
   "property": "C107",
   "status": "partial",
   "theorems": [
    "Verif.Kasm.C107_invalid_jump_violated",
    "Verif.Kasm.C107_invalid_jump_partial"
   ],
   "note": "false of the code: a destination above 24576 (valid in init code) is not checked at all, and a position among the 32 that end at the destination begins the walk behind it (C107_invalid_jump_violated); partial: everything holds for code that can be deployed and any other position"
  },
  {
   "property": "C108",
   "status": "proved",
   "theorems": [
    "Verif.Kasm.C108_add",
    "Verif.Kasm.C108_addmul",
    "Verif.Kasm.C108_mul",
    "Verif.Kasm.C108_compare",
    "Verif.Kasm.C108_is_zero",
    "Verif.Kasm.C108_is_one",
    "Verif.Kasm.C108_halve"
   ],
   "note": "for every length; positions within the first 2^32 cells of the segment"
  },
  {
   "property": "C109",
   "status": "partial",
   "theorems": [
    "Verif.Kasm.C109_modmul_violated",
    "Verif.Kasm.C109_any_result",
    "Verif.Kasm.C109_modmul_partial",
    "Verif.Kasm.C109_honest",
    "Verif.Kasm.C109_common_divisor",
    "Verif.Kasm.C109_no_overflow"
   ],
   "note": "false of the code: only the low half of the two sides is compared, so for an odd modulus the prover can make the result any number below it (C109_any_result); partial: exactly which remainders and quotients are accepted, what a result is worth (its residue modulo the common divisors of m and the power of two), right if nothing overflows, complete for the honest prover"
  },
  {
   "property": "C110",
   "status": "proved",
   "theorems": [
    "Verif.Kasm.C110_cells",
    "Verif.Kasm.C110_bytes",
    "Verif.Kasm.C110_bytes_backwards",
    "Verif.Kasm.C110_clear",
    "Verif.Kasm.C110_unpack"
   ],
   "note": "blocks within one segment; that the 32 entries of the jump table after mstore_unpacking_0 are three bytes apart is a hypothesis (Prog.Copies)"
  },
  {
   "property": "C111",
   "status": "partial",
   "theorems": [
    "Verif.Kasm.C111_modexp_violated",
    "Verif.Kasm.C111_any_result",
    "Verif.Kasm.C111_modexp_partial",
    "Verif.Kasm.C111_power_of_two",
    "Verif.Kasm.C111_honest"
   ],
   "note": "false of the code, because of C109: for every odd modulus above one and every exponent but zero the prover can make the result any number below the modulus (C111_any_result); partial: for every prover the result is below the modulus and right modulo its common divisors with 2^(128 n), so right for powers of two; complete for the honest prover. The precompile around it (expmod.asm: reading the operands, gas, output) is not modelled"
  },
  {
   "property": "C112",
   "status": "partial",
   "theorems": [
    "Verif.Kasm.C112_reads",
    "Verif.Kasm.C112_gas",
    "Verif.Kasm.C112_blockhash",
    "Verif.Kasm.C112_blobhash",
    "Verif.Kasm.C112_blobbasefee_violated",
    "Verif.Kasm.C112_blobbasefee_any",
    "Verif.Kasm.C112_blobbasefee_partial",
    "Verif.Kasm.metadata_held"
   ],
   "note": "all but BLOBBASEFEE proved; BLOBBASEFEE is false of the code: the kernel pushes what the prover supplies and checks nothing. That the kernel leaves the cells with the block's data alone between the start and the instruction is a hypothesis (HoldsInputs), shown for the memory generation starts with"
  },
  {
   "property": "C113",
   "status": "proved",
   "theorems": [
    "Verif.Kasm.C113_memory_instructions",
    "Verif.Kasm.C113_load_after_store"
   ],
   "note": "one simulation theorem for the nine instructions, whose conclusion re-establishes its hypothesis; the kernel's bound of 50,000,000 on offsets is shown to be without effect for gas limits up to 2^32 (a block's gas limit is a u32 public value). EXTCODECOPY is not modelled"
  },
  {
   "property": "C114",
   "status": "partial",
   "theorems": [
    "Verif.Kasm.C114_call_gas_partial",
    "Verif.Kasm.C114_unpaid",
    "Verif.Kasm.C114_not_faulted",
    "Verif.Kasm.C114_violated"
   ],
   "note": "proved except for callers that cannot pay the price and ask for 2^62 gas or more to be passed on; for those the kernel adds price and request modulo 2^64 and can charge nothing (a fault of the code, shown). The access list is that of C105 and the state that of C102: the prover's hints for the two reads of the account are taken to be right. Memory expansion is C113's"
  },
  {
   "property": "C115",
   "status": "partial",
   "theorems": [
    "Verif.Kasm.C115_sload_partial",
    "Verif.Kasm.C115_sstore_partial",
    "Verif.Kasm.C115_sload_violated",
    "Verif.Kasm.C115_sstore_violated",
    "Verif.Kasm.C115_violated"
   ],
   "note": "proved in full when the prover's hints are right; the property for every hint fails (a consequence of C102's finding): a prover can make SLOAD of a nonzero slot give 0 and SSTORE of 0 end without effect. Two slots of an account whose Keccak hashes agree count as one, as in the code"
  },
  {
   "property": "C116",
   "status": "proved",
   "theorems": [
    "Verif.Kasm.C116_intrinsic_gas"
   ],
   "note": ""
  },
  {
   "property": "C117",
   "status": "partial",
   "theorems": [
    "Verif.Kasm.C117_valid",
    "Verif.Kasm.C117_valid_present",
    "Verif.Kasm.C117_invalid_partial",
    "Verif.Kasm.C117_sound_partial",
    "Verif.Kasm.C117_overflow_violated",
    "Verif.Kasm.C117_maxfee_violated",
    "Verif.Kasm.C117_violated"
   ],
   "note": "valid transactions are executed and charged exactly; a transaction invalid for any reason but the balance is always rejected; the balance check is proved to reject only for sums below 2^256 and against the effective price, as the kernel computes gas limit times price plus value modulo 2^256 and does not look at the greatest fee. Honest hints for the sender's account are assumed (C102)"
  },
  {
   "property": "C118",
   "status": "partial",
   "theorems": [
    "Verif.Kasm.C118_transfer",
    "Verif.Kasm.C118_conserved",
    "Verif.Kasm.C118_wiped",
    "Verif.Kasm.C118_wiped_violated",
    "Verif.Kasm.C118_violated"
   ],
   "note": "proved for an honest prover, i.e. hints that name the predecessors of the two accounts; without that it is false: with the start of the list as the hint the recipient is taken for missing (C102) and its record is replaced by a new one, so that its balance, nonce and code are lost"
  },
  {
   "property": "C119",
   "status": "partial",
   "theorems": [
    "Verif.Kasm.C119_settlement",
    "Verif.Kasm.C119_existing",
    "Verif.Kasm.C119_accounting",
    "Verif.Kasm.C119_taken",
    "Verif.Kasm.C119_minted_violated",
    "Verif.Kasm.C119_violated"
   ],
   "note": "the amounts are proved exactly for sums that fit into a word, for both a new and an old beneficiary; that no ether is created is false, as the price taken in advance wraps (C117) and the amounts paid out need not: a sender without a balance ends with 2^256 - 147140 wei. Execution between the two is assumed to conserve ether; the settlement is proved for the path after a call, where the macro is expanded as on the others. Honest hints are assumed, as in C118"
  },
  {
   "property": "C120",
   "status": "partial",
   "theorems": [
    "Verif.Kasm.C120_created",
    "Verif.Kasm.C120_collision",
    "Verif.Kasm.C120_selfdestruct",
    "Verif.Kasm.C120_unlogged",
    "Verif.Kasm.C120_old_contract_destroyed",
    "Verif.Kasm.C120_violated"
   ],
   "note": "creation and SELFDESTRUCT are proved for honest hints, from the point where the constructor is set up and where gas has been charged; that only contracts created in the transaction are deleted is false: a failed creation (CREATE2 on an existing contract) leaves the address among the created ones, and a SELFDESTRUCT of a created contract without balance in favour of an account that is not there writes no journal entry, so that it cannot be reverted"
  },
  {
   "property": "C121",
   "status": "partial",
   "theorems": [
    "Verif.Kasm.C121_selfdestructed",
    "Verif.Kasm.C121_touched",
    "Verif.Kasm.C121_denied",
    "Verif.Kasm.C121_violated"
   ],
   "note": "that nothing else is deleted is proved for every prover; that all of them are deleted is false: a prover that names the start of the list denies every account (C103's gap), and the routine then skips it"
  },
  {
   "property": "C122",
   "status": "partial",
   "theorems": [
    "Verif.Kasm.C122_reverted",
    "Verif.Kasm.C122_batch",
    "Verif.Kasm.C122_transfer",
    "Verif.Kasm.C122_selfdestruct_stays",
    "Verif.Kasm.C122_violated"
   ],
   "note": "proved for every history of journal entries of the types 0 to 10, if the prover's hints lie in the lists of accessed addresses and slots and are honest when ether is moved back (otherwise C105's and C118's gaps apply); that the kernel's operations are what their entries say is proved here for transfers; it is false for a SELFDESTRUCT without entry, which is not undone (C122_violated); transient storage (type 11) is not modelled"
  },
  {
   "property": "C123",
   "status": "partial",
   "theorems": [
    "Verif.Kasm.C123_deposited",
    "Verif.Kasm.C123_refused",
    "Verif.Kasm.C123_rejected",
    "Verif.Kasm.C123_denied",
    "Verif.Kasm.C123_violated",
    "Verif.Kasm.C123_return_violated",
    "Verif.Kasm.C123_prover_violated"
   ],
   "note": "acceptance is proved with an honest prover unless the code is empty and older return data begins with 0xEF; rejection is proved with the undoing of C122 and its conditions; three parts are false: empty code is refused because of an older first byte (C123_violated), a creation refused for 0xEF or for its size leaves its code as return data (C123_return_violated; C123_refused says exactly when), and a prover that denies the account makes the creation succeed without code (C123_prover_violated)"
  },
  {
   "property": "C124",
   "status": "partial",
   "theorems": [
    "Verif.Kasm.C124_start",
    "Verif.Kasm.C124_tload_partial",
    "Verif.Kasm.C124_tstore_partial",
    "Verif.Kasm.C124_refused",
    "Verif.Kasm.C124_undone_partial",
    "Verif.Kasm.tset_tset",
    "Verif.Kasm.C124_violated",
    "Verif.Kasm.C124_store_violated",
    "Verif.Kasm.C124_reached",
    "Verif.Kasm.C124_moved"
   ],
   "note": "proved when no slot number and value, and no value and next address, look like the address and slot searched for (TClean; TSafe.clean gives a condition on the contents alone); without that it is false: a contract reads a value it never stored (C124_violated), and its store empties a slot of another contract and gives it to a third (C124_store_violated, C124_moved), in a state two stores lead to (C124_reached)"
  },
  {
   "property": "C125",
   "status": "proved",
   "theorems": [
    "Verif.Kasm.C125_scalar",
    "Verif.Kasm.C125_scalar_twice",
    "Verif.Kasm.C125_string",
    "Verif.Kasm.C125_string_header",
    "Verif.Kasm.C125_list_header",
    "Verif.Kasm.C125_list",
    "Verif.Kasm.C125_read_scalar",
    "Verif.Kasm.C125_read_string",
    "Verif.Kasm.C125_read_list",
    "Verif.Kasm.C125_scalar_back",
    "Verif.Kasm.C125_string_back",
    "Verif.Kasm.C125_distinct",
    "Verif.Kasm.C125_next",
    "Verif.Kasm.C125_next_bound",
    "Verif.Kasm.C125_lenient"
   ],
   "note": "for a destination inside one segment (for strings with one cell to spare) and a source that does not overlap it; the reader also takes bytes that are no encoding, as its comment says (C125_lenient), and the transaction key is wrong after 65535 (C125_next_bound), which its comment excludes"
  },
  {
   "property": "C126",
   "status": "proved",
   "theorems": [
    "Verif.Kasm.C126_legacy",
    "Verif.Kasm.C126_high_s",
    "Verif.Kasm.C126_bad_to",
    "Verif.Kasm.C126_origin",
    "Verif.Kasm.C126_no_origin",
    "Verif.Kasm.C126_binding",
    "Verif.Kasm.C126_wire"
   ],
   "note": "signature recovery (ecrecover) itself is a jump out of the model and keccak a parameter; the field that says whether a chain was given is clear at the start, as reinitialize_memory_pre_txn leaves it; v below 27 (refused by ecrecover) and from 29 to 34 (a chain ID that wraps, refused by the chain check) are not in the theorem; bytes that are no canonical encoding are read as C125_lenient says"
  },
  {
   "property": "C127",
   "status": "partial",
   "theorems": [
    "Verif.Kasm.C127_loaded",
    "Verif.Kasm.C127_kind",
    "Verif.Kasm.C127_executed",
    "Verif.Kasm.C127_prefix",
    "Verif.Kasm.C127_in_trie_partial",
    "Verif.Kasm.C127_truncated_violated"
   ],
   "note": "proved: the leaf is the first bytes of what is executed, as many as the prover's length says, and if the leaf is a legacy transaction then that transaction is executed; the converse is false (C127_truncated_violated): the length is never compared with what the decoder consumes, so a shorter leaf can stand for a transaction that is executed in full. The insertion in the trie itself is a jump out of the model, assumed to leave the input segment alone"
  },
  {
   "property": "C128",
   "status": "partial",
   "theorems": [
    "Verif.Kasm.C128_before",
    "Verif.Kasm.C128_after",
    "Verif.Kasm.C128_typed_partial",
    "Verif.Kasm.C128_typed_list_partial",
    "Verif.Kasm.C128_high_s",
    "Verif.Kasm.C128_bad_to",
    "Verif.Kasm.C128_origin",
    "Verif.Kasm.C128_no_origin",
    "Verif.Kasm.C128_binding",
    "Verif.Kasm.C128_kinds",
    "Verif.Kasm.C128_wire"
   ],
   "note": "proved for every transaction up to the access list and from its end on, from end to end if the access list is empty (C128_typed_partial), and with an access list for every hint that is not below the lists of accessed addresses and keys (C128_typed_list_partial); what such hints can do is shown in C105"
  },
  {
   "property": "C129",
   "status": "partial",
   "theorems": [
    "Verif.Kasm.C129_list_partial",
    "Verif.Kasm.C129_original",
    "Verif.Kasm.C129_violated",
    "Verif.Kasm.C128_typed_list_partial"
   ],
   "note": "false of the code for the original values: with the start of the storage list as hint 0 is recorded, whatever the slot holds (C129_violated, a consequence of what C102 shows); partial: sets, cost and the rest hold for every hint that is not below the lists (see C105), and the original values for right hints. That right hints do not abort is shown for lists with one entry and at most one key"
  },
  {
   "property": "C130",
   "status": "partial",
   "theorems": [
    "Verif.Kasm.C130_hashes",
    "Verif.Kasm.C130_fee_partial",
    "Verif.Kasm.C130_no_origin",
    "Verif.Kasm.C130_any_price",
    "Verif.Kasm.C130_violated"
   ],
   "note": "false of the code for the price: it is a prover input that nothing checks, and max_fee_per_blob_gas is stored but never read (C130_violated, C130_any_price); proved: hashes are checked and stored, the fee at the price the prover says is taken from the sender and from nobody else, a sender without it ends the proof. Partial: right hints for reading the sender's account"
  },
  {
   "property": "C131",
   "status": "partial",
   "theorems": [
    "Verif.Kasm.C131_partial",
    "Verif.Kasm.C131_pays",
    "Verif.Kasm.C131_burnt",
    "Verif.Kasm.C131_violated"
   ],
   "note": "false of the code: the fee for blobs is taken before the checks and is not given back (C131_violated); proved: exactly the fee is lost and nothing else (C131_pays), so the claim holds if the fee is 0 (C131_partial). For transactions without blobs see C117"
  },
  {
   "property": "C132",
   "status": "partial",
   "theorems": [
    "Verif.Kasm.C132_partial",
    "Verif.Kasm.C132_no_blobs",
    "Verif.Kasm.C132_violated"
   ],
   "note": "false of the code: words of the reading routine stay on the stack, and the loop takes an address for the gas used so far (C132_violated); proved: the exact stack after a bad recipient in a transaction of type 2 (C132_partial) and after a transaction without blobs (C132_no_blobs), and that success and gas left over are right. Transactions rejected by the later checks leave the stack as it was (C117)"
  },
  {
   "property": "C133",
   "status": "partial",
   "theorems": [
    "Verif.Kasm.C133_partial",
    "Verif.Kasm.C133_after",
    "Verif.Kasm.C133_high",
    "Verif.Kasm.C133_binding",
    "Verif.Kasm.C133_kinds"
   ],
   "note": "proved for transactions with at least one blob, versioned hashes and low s. Partial: hints for marking addresses and keys that are not below the lists, as in C128; with wrong hints for reading storage the original value of a listed key can be recorded as 0 (C129). Transactions that are refused: C130, C132"
  },
  {
   "property": "C134",
   "status": "proved",
   "theorems": [
    "Verif.Kasm.C134_create",
    "Verif.Kasm.C134_create2",
    "Verif.Kasm.C134_create_binding",
    "Verif.Kasm.C134_create2_binding",
    "Verif.Kasm.C134_kinds"
   ],
   "note": "keccak256 is a parameter; with a wrong hint for the size of the nonce the kernel panics. That the callers pass the sender and its nonce is not part of this claim"
  },
  {
   "property": "C135",
   "status": "proved",
   "theorems": [
    "Verif.Kasm.C135_log",
    "Verif.Kasm.C135_order",
    "Verif.Kasm.C135_binding",
    "Verif.Kasm.C135_undone"
   ],
   "note": "from the routine the system calls share on; the system calls are C136. The offset and length are in the range the memory expansion allows, and the segments of the logs and of the journal are not full"
  },
  {
   "property": "C136",
   "status": "proved",
   "theorems": [
    "Verif.Kasm.C136_emitted",
    "Verif.Kasm.C136_refused",
    "Verif.Kasm.C136_logs"
   ],
   "note": "from the system call to EXIT_KERNEL, over the log of C135; gas limits up to 2^32, at which the kernel's bound on offsets is without effect (as C113). What the handler of the fault does is not part of this claim"
  },
  {
   "property": "C137",
   "status": "proved",
   "theorems": [
    "Verif.Kasm.C137_bloom",
    "Verif.Kasm.C137_found"
   ],
   "note": "keccak256 is a parameter. That the filter is cleared between transactions and added to that of the block is not part of this claim"
  },
  {
   "property": "C138",
   "status": "proved",
   "theorems": [
    "Verif.Kasm.C138_receipt",
    "Verif.Kasm.C138_refused",
    "Verif.Kasm.C138_cleared"
   ],
   "note": "the insertion in the trie and the encoding of the receipt there are not part of this claim; keccak256 is a parameter. The prover hints two bit lengths; the theorem says that no wrong hint gives another receipt and right hints give this one"
  }
 ]
}