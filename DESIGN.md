# Formal model of 0xPolygonZero/zk_evm in Lean 4

## Trusted base

* Lean 4.33.0's kernel.
* Axioms: only `propext`, `Classical.choice`, `Quot.sound`. No own axioms, no
  `sorry`, no `native_decide`/`bv_decide`.
* The faithfulness of the hand translation from Rust to Lean. Every model
  definition cites the file and lines it models and says what it simplifies.
* Outside the model, per area, see "Modelled / not modelled" below.

## Conventions

* `&mut` arguments become returned values; `Result::Err` and panics become
  distinct values of an error type (`Fault`).  A theorem that says "succeeds"
  therefore says "neither errors nor panics".
* `Nibbles` as used by the trie is a list of nibbles; the packed 320-bit type is
  modelled separately and shown to refine the list operations (C11).
* keccak / Poseidon are parameters `List UInt8 → H256` (resp. on field tuples);
  no theorem assumes global injectivity. Collision hypotheses range over the
  strings actually hashed by the execution at hand.
* Field elements in the STARK tables are elements of `ZMod p` for the Goldilocks
  prime (proved prime in `Stark/Field.lean`). A table is accepted if every constraint the code
  yields is zero on the rows it applies to and if every looked up cell occurs in the column it
  is looked up in. That FRI, the quotient polynomial and the logarithmic derivative argument
  enforce this is assumed, not modelled. The bound of 16 bits of the shared columns is derived.
  The STARK modules use Mathlib (`ZMod`, sums, `ring`, `linarith`).

## Plan per property

| id | model | proof |
|----|-------|-------|
| C01-C03 | `trie_ops.rs` insert/get/delete/collapse on `Node` | canonical-form invariant by induction over histories; refinement to `Key → Option Value`; canonical forms are unique |
| C04 | the iterator as the explicit stack machine it is | simulation of a recursive traversal |
| C05 | same model | the code violates it: concrete counterexample theorems; the guarded versions are C01/C02 with prefix-free keys |
| C06 | `Node` with hash nodes, RLP encoding and hash | relation "p is t with sub-tries hashed out", preserved by ops |
| C48 | same relation | violated when the hash hides a leaf or extension; proved when it hides a branch |
| C47 | failures of delete | case analysis; violated by a panicking error path |
| C07, C08 | `trie_subsets.rs` | hash preservation by structural induction; C08 is violated (root touched flag), counterexample + partial |
| C09 | RLP + hex prefix encoders | encoder injectivity, no-collision on the hashed strings |
| C10 | heap of cache cells, handles | invariant over interleavings; violated with clones / failing extend, counterexample + partial |
| C11, C12, C50 | packed `U320` arithmetic on `Nat` | refinement to lists |
| C49 | `Yellow.lean`: relational transcription of the Yellow Paper, appendix D | structural induction; `Root` is also shown to be functional |
| C13 | `special_query.rs` iterator | induction on the trie |
| C14 | `tries.rs` | from the delete model |
| C15 | `MptKey` | RLP of integers is injective / prefix-free |
| C16-C18, C22 | `smt.rs` with node db keyed by hash | refinement to an inductive tree; C17 is violated (panic), counterexample + partial |
| C56, C57 | same, with hash nodes; `as_smt` of `world.rs` | the partial database is below the full one; uniqueness of canonical trees |
| C58 | pruned serialization | the ghost pruned tree is laid out in the vector |
| C59 | `keys.rs` | packing is injective |
| C19-C21 | `keys.rs`, `bits.rs`, `code.rs` | bit arithmetic on lists |
| C23-C25, C29 | `core.rs` batching and accounting | list induction |
| C26 | `world.rs` | invariant |
| C51 | `middle` generic over the hook | counting hook; violated by empty blocks |
| C52 | `middle`, `entrypoint` | masking preserves roots |
| C55 | masks collected by `middle` | invariant of the masks; sub-tries answer the requested keys |
| C53, C54 | an abstract account map (`AState`) and a per-trace function | the tries represent the abstract state (`Rep`), preserved by every step |
| C27, C28, C60 | `wire.rs`, `type1.rs`, `type2.rs` | round trip by induction; the frontend decodes exactly the readable streams |
| C61 | `Type2World` of `world.rs` | refinement to a map of fields; canonical SMT trees; violated next to a hashed-out leaf |
| C30-C32 | `zero` intervals, range parsing, retries | decision logic |
| C33, C62 | `BlockProverInput::prove` | every completion order and every bracketing of the folds; C62 violated by swallowed task failures |
| C34 | `prove` of `prover.rs` | transition system, invariants over all interleavings |
| C63, C64 | `pre_checks.rs`, `verifier.rs` | decision logic; composition of runs of C34 |
| C65-C67 | circuit file names and cache directory | injectivity of names; invariant over histories with crashes |
| C68 | `fetch_previous_block_hashes` and the EVM code it sends | list arithmetic; loop invariant of the code |
| C69 | `CachedProvider` | invariant of the cache; violated |
| C35-C41 | constraint polynomials over `ZMod p` | lift to integers by bounds; C37/C40 violated for zero divisor |
| C70 | the rows shared with the CPU | from C35-C40 by the flags; violated by range check rows |
| C42, C43 | memory table constraints | ordering invariant over rows; C43 violated in part |
| C71 | generation of the logic table | row by row; constraints hold for every list of operations |
| C44, C45 | optimizer passes and a stack semantics | each rewrite preserves semantics; C44 violated by one rewrite |
| C46 | stack manipulation | invariant of the search: recorded steps lead from parents to children |
| C72 | the same, hash map order a parameter | violated, two orders evaluated |
| C73-C76, C78 | the connections the aggregation, batch, block and wrapper circuits make between public values | induction on how a proof was made; each circuit's constraints imply a list-level specification (`Recursion/Spec.lean`) |
| C77 | two-to-one aggregation | induction on the nesting, equal or a collision |
| C79 | writing and reading public inputs | layout lemma (slices of a concatenation), limbs round-trip |
| C80, C84 | `to_buffer`/`from_buffer` of all circuits | readers consume exactly what writers wrote, compositional; C84 by "a reader that succeeds on a prefix reads the same" |
| C81, C82 | transcript and extra memory rows, native and in-circuit | equality of lists; C82 by injectivity of concatenation; forgery by solving two linear equations |
| C83 | the provers of the aggregation circuits | construct the witness for every list |
| C85 | constraints of `keccak_stark.rs` | each round's constraints imply one round of FIPS 202 on the bits of the row; induction over the 24 rows; counterexample for tables with cells that are no bits |
| C86 | generation of the Keccak table | the generated cells satisfy each constraint; induction over rounds, then over the list of inputs |
| C87 | constraints, lookup and cross-table columns of the byte packing table | one length flag per row; byte cells from the counter and its lookup; words and bytes compared as numbers |
| C88 | generation of the byte packing table, `byte_packing_log`, `byte_unpacking_log` | the generated cells satisfy each constraint; a counter with occurrence counts satisfies the lookup |
| C89 | constraints, lookups and cross-table columns of the Keccak sponge table; Keccak-256 on bytes as specification | false: forged tables by construction for any string; soundness under guards by induction along the rows of a string |
| C90 | generation of the sponge table, `keccak_sponge_log`, the permutation on words and bytes | generated rows are those of an honest prover for the specification's states; logs compared as lists |
| C91 | all constraints of the CPU table; lookups into the arithmetic and logic tables | false: concrete accepted tables; for the other flags the decoding is checked over all opcodes (a finite table) |
| C92 | as C91 | false: concrete tables; the rest per instruction from the constraints, over the field |
| C93 | as C91 | false: tables of padding rows of any height; clock and end by induction along the rows |
| C94 | as C91, with the memory channels the CPU table sends to the memory table | false: padding rows that write any value to any address, POP without read; the rest per instruction, with the free channels as an explicit guard |
| C95 | as C94, with the arithmetic and logic tables; memory as a function from addresses to words, the stack as a list | false: a left shift by 2^32 with a free factor; the rest per instruction by refinement: the memory operations of C94 acting on the memory that holds the stack |
| C96 | generation of the memory table: sorting, filling of gaps, padding, flags, frequencies, stale contexts, final values (`Memory/Gen.lean`) | the final list of operations is a chain of neighbours within the range check (a weaving of the sorted history with the dummy reads); then cell by cell, and the lookups by counting |
| C97 | the interpreter's memory as nested lists; listing, clearing of stale contexts; continuation tables (`Memory/Handover.lean`) | induction over the operations: each word in use holds the value of its last operation; two lists in address order with the same members are equal |
| C98 | generation of the arithmetic table: results, rows of every operation, padding, counter, frequencies (`Arith/Gen.lean`) | limb by limb: the carries computed are those the constraints ask for, and their bounds keep every cell in the range check; then blocks of one or two rows are put together |
| C99 | operations of the memory table as the other tables see them, a sequential memory of limbs (`Memory/Sequence.lean`) | from C42: the last write before a read in the sequence is the latest write in time; the initial value of the first row's address is free, as in C42 (`C99_violated`) |
| C100 | the instructions of `signed.asm` as lists, a machine executing kernel instructions on stack and memory (`Kasm/Machine.lean`, `Kasm/Code/Signed.lean`) | symbolic execution of each routine from its entry, then arithmetic; specification through two's complement integers |
| C101 | the instructions of `exp.asm` (`Kasm/Code/Exp.lean`) | loop invariant by induction over the exponent's bits; binary search of the byte length |
| C102 | the lookups of `linked_list.asm` (`Kasm/Code/LinkedList.lean`), prover inputs arbitrary; lists in memory as finite maps (`Kasm/Chain.lean`, `Accounts.lean`, `Slots.lean`) | violated: shown for every list with the start as hint, and for a concrete memory; partial: symbolic execution with the list invariant |
| C103 | inserting and removing in `linked_list.asm` | the list invariant (chain, removed nodes marked, keys sorted) is kept for every hint; right hints exist and succeed |
| C104 | `remove_all_account_slots` (`Kasm/RemoveSlots.lean`) | violated: concrete memory and hint; partial: induction over the rest of the list |
| C105 | `access_lists.asm` and the journal macros it uses (`Kasm/Code/AccessLists.lean`), prover inputs arbitrary; the lists in memory as a set and a finite map (`Kasm/Access.lean`, `AccessKeys.lean`) | violated: shown for every hint below the list whose cell holds the address, and for a concrete memory; partial: symbolic execution with the list invariant for all other hints |
| C106 | `jumpdest_analysis.asm` (`Kasm/Code/Jumpdest.lean`), prover inputs arbitrary; the table of instruction lengths is a hypothesis on the kernel's code in memory; the check of 32 bytes at once is proved from its bits (`Kasm/Packed.lean`) | violated: concrete memory, and in general (`run_analysis_wrap`); partial: induction over the walk and over the prover's pairs |
| C107 | `invalid_jump_jumpi_destination_common` of `exception.asm`, `verify_non_jumpdest` | violated in two ways; partial: from the walk |
| C108 | `bignum/{add,addmul,mul,cmp,iszero,isone,shr}.asm` (`Kasm/Code/Bignum.lean`); integers in memory as base-2^128 digits (`Kasm/Limbs.lean`) | one round of each loop symbolically, then induction over the limbs (`Kasm/Bignum.lean`, `BignumCmp.lean`) |
| C109 | `bignum/modmul.asm`, prover inputs arbitrary (`Kasm/Modmul.lean`) | violated: a quotient for every remainder by the Chinese remainder theorem; partial: the routine comes back exactly if the check modulo `2^(128 n)` holds |
| C110 | `memory/memcpy.asm`, `memory/memset.asm`, `memory/packing.asm:25-45` (`Kasm/Code/Copy.lean`) | strong induction over the length (`Kasm/Copy.lean`); the entries of the table `packing.asm:47-235` are taken to be where `mstore_unpacking` jumps (`Prog.Copies`) |
| C111 | `bignum/modexp.asm` with its macro calls expanded (`Kasm/Code/Modexp.lean`), `modmul_bignum`, `memcpy`, `memset`; prover inputs arbitrary | one round symbolically from C109's and C110's runs, induction over the binary digits of the exponent (`Kasm/Modexp.lean`); violated: inputs for any result by induction; partial: congruence modulo the common divisors |
| C112 | `memory/metadata.asm`, `core/gas.asm`, `memory/txn_fields.asm`: the system calls that read the environment (`Kasm/Code/Env.lean`); `apply_metadata_and_tries_memops` as a list of writes | symbolic runs (`Kasm/Env.lean`), case analysis for BLOCKHASH; violated: BLOBBASEFEE with an arbitrary input |
| C113 | `memory/syscalls.asm` but EXTCODECOPY, `%update_mem_words`, `%memory_cost`, `sys_msize` (`Kasm/Code/MemSys.lean`) | symbolic runs (`Kasm/MemSys.lean`) over the copy loops of C110; a simulation against a small specification of the instructions (`MemOp`) |
| C114 | `core/call_gas.asm`, the charge and depth check of the four handlers in `core/call.asm`, `call_too_deep`, `mpt_read_state_trie`, `%is_dead` (`Kasm/Code/CallGas.lean`, `Call.lean`, `StateRead.lean`) | symbolic runs (`Kasm/StateRead.lean`, `CallGas.lean`) over the account list of C102; compared with the Yellow Paper's formulas |
| C115 | `mpt/storage/storage_read.asm`, `storage_write.asm` (`Kasm/Code/Storage.lean`) with the journal and the refund counter (`Kasm/Journal.lean`) | symbolic runs (`Kasm/Storage.lean`, `StorageSys.lean`) over the slot list of C102–C104 and the access list of C105; compared with the EIPs' tables; violated for a dishonest hint |
| C116 | `core/intrinsic_gas.asm` (`Kasm/Code/IntrinsicGas.lean`) | induction over the data (`Kasm/Intrinsic.lean`), compared with the Yellow Paper's sum |
| C117 | `core/process_txn.asm` to `increment_sender_nonce`, `core/nonce.asm`, `balance.asm`, `core/transfer.asm:deduct_eth`, `account_code.asm:extcodehash`, `core/touched_addresses.asm` (`Kasm/Code/{ProcessTxn,Transfer,AccountCode,Touched}.lean`) | symbolic runs over the list of accounts and the journal (`Kasm/Touched.lean`, `Balance.lean`, `Txn.lean`); compared with EIP-1559's conditions; violated by wrapped sums. The `cdk_erigon` and `polygon_pos` branches are not modelled |
| C118 | `core/transfer.asm`, `mpt/insert/insert_trie_specific.asm:mpt_insert_state_trie` (`Kasm/Code/{Transfer,StateInsert}.lean`) | symbolic runs over the list of accounts and the trie data (`Kasm/Transfer.lean`); conservation by induction over a set of accounts; violated for a dishonest hint |
| C119 | `core/process_txn.asm`, `%pay_coinbase_and_refund_sender` after a call (`Kasm/Code/ProcessTxn.lean`) | symbolic runs with two credits (`Kasm/Settle.lean`), compared with EIP-1559 and EIP-3529; violated together with C117's wrapped price |
| C120 | `core/create_contract_account.asm`, `core/terminate.asm:sys_selfdestruct`, `core/selfdestruct_list.asm` (`Kasm/Code/{RunConstructor,Terminate,SelfdestructList}.lean`) | symbolic runs over the lists of created contracts and of accounts to delete (`Kasm/Selfdestruct.lean`, `Kasm/Destruct.lean`); compared with EIP-684, EIP-6780; violated by a failed creation |
| C121 | `core/selfdestruct_list.asm`, `core/touched_addresses.asm`, `mpt/delete/delete.asm:delete_account` (`Kasm/Code/{SelfdestructList,Touched,DeleteAccount}.lean`) | induction over the lists, for every hint (`Kasm/Delete.lean`); violated by a prover that denies accounts |
| C122 | `journal/*.asm` (`Kasm/Code/{Revert,Undo}.lean`) | one lemma for each type of entry (`Kasm/Undo.lean`), induction over the history (`Kasm/Unwind.lean`) and over the checkpoints (`Kasm/Checkpoint.lean`); transfers write a history (`Kasm/Forward.lean`); violated by a SELFDESTRUCT without journal entry |
| C123 | `core/create.asm:142-273` (`Kasm/Code/Create.lean`) | symbolic execution of each way out (`Kasm/Deposit.lean`), composed with C122's undoing (`Kasm/DepositClaims.lean`); three violations with concrete kernels and memories |
| C124 | `memory/transient_storage.asm`, `journal/transient_storage_change.asm` (`Kasm/Code/Transient.lean`) | induction over the cells the search passes, invariant that the array holds the entries (`Kasm/Transient.lean`); violations with a concrete kernel run by `runOut` (`Kasm/TransientClaims.lean`) |
| C125 | `rlp/num_bytes.asm`, `rlp/encode.asm`, `rlp/encode_rlp_scalar.asm`, `rlp/encode_rlp_string.asm`, `rlp/decode.asm`, `rlp/increment_bounded_rlp.asm` (`Kasm/Code/Rlp.lean`) | every block run symbolically, the hint for the number of bits shown to be forced (`Kasm/Rlp.lean`, `Kasm/RlpRead.lean`); the encoding is a separate specification of a few lines |
| C126 | `transactions/type_0.asm` with the macros of `transactions/common_decoding.asm` (`Kasm/Code/Type0.lean`) | every block run symbolically over the RLP rules of C125 (`Kasm/Type0.lean`); the transaction, its encoding and its signed bytes are a separate specification of a few lines; prefix-freedom of RLP by cases on the header |
| C127 | `rlp/read_to_memory.asm`, `transactions/router.asm` (`Kasm/Code/Router.lean`) | induction over the words read, block runs (`Kasm/Router.lean`), composed with C126; the violation from the general theorem with a concrete tape (`Kasm/RouterClaims.lean`) |
| C128 | `transactions/type_1.asm`, `transactions/type_2.asm`, `transactions/common_decoding.asm` (`Kasm/Code/Type1.lean`, `Code/Type2.lean`, `Code/AccessList.lean`) | block runs (`Kasm/Typed.lean`, `Type1.lean`, `Type2.lean`, `Type1Run.lean`, `Type2Run.lean`), prefix-freeness of the encoding for the binding (`Kasm/TypedClaims.lean`) |
| C129 | `transactions/common_decoding.asm:164-257` (`Kasm/Code/AccessList.lean`) with `core/access_lists.asm` and `search_slot` | one step for an address and a key (`Kasm/AccessRead.lean`), induction over keys and entries (`Kasm/AccessLoop.lean`), composed with C128; the violation with a concrete memory (`Kasm/AccessReadClaims.lean`) |
| C130 | `transactions/type_3.asm:38-40`, `:83-118`, `transactions/common_decoding.asm:249-308` (`Kasm/Code/Type3.lean`, `Kasm/Code/AccessList.lean`) with `deduct_eth` | induction over the hashes (`Kasm/Blob.lean`); the fee with what C118 uses for `deduct_eth`; the violation with a concrete memory and two inputs (`Kasm/BlobClaims.lean`) |
| C131 | `transactions/type_3.asm:83-101` followed by `core/process_txn.asm` | `run_blob_origin` composed with C117's rejection; the violation is a transaction with too little gas (`Kasm/BlobRejected.lean`) |
| C132 | `transactions/type_2.asm`, `type_3.asm` and `common_decoding.asm` up to the refusal, `core/process_txn.asm:517-540` | the runs of C128 and C130 with the stack kept explicit; the violation is a transaction to a recipient of 19 bytes (`Kasm/Misaligned.lean`) |
| C133 | `transactions/type_3.asm:9-81` (`Kasm/Code/Type3.lean`) with the access list of C129 and the hashes of C130 | field by field (`Kasm/Type3.lean`), the whole transaction before and after the list (`Kasm/BlobRead.lean`), composed with `run_access_list` (`Kasm/BlobReadClaims.lean`); RLP is uniquely readable |
| C134 | `core/create_addresses.asm:6-77` (`Kasm/Code/CreateAddr.lean`) with the RLP of C125 | execution of both routines over `encode_rlp_fixed`, `encode_rlp_scalar` and `prepend_rlp_list_prefix` (`Kasm/NewAddress.lean`); RLP is uniquely readable |
| C135 | `core/log.asm:100-272`, `journal/log.asm` (`Kasm/Code/Log.lean`) | execution of `log_n_entry` to the return (`Kasm/Logs.lean`): topics, then the lengths with the prover's numbers of bits, then the loop over the data; the invariant `LogsAre` over the list of logs |
| C136 | `core/log.asm:1-98` with `memory/metadata.asm:371-393` | execution of the five system calls (`Kasm/LogSys.lean`) with the lemmas on memory growth of MemSys, then C135 |
| C137 | `bloom_filter.asm` (`Kasm/Code/Bloom.lean`) with `memory/packing.asm` | execution of `logs_bloom` (`Kasm/Bloom.lean`): induction over the logs and the topics, in the state of logs `LogsAre` that C135 maintains |
| C138 | `core/create_receipt.asm` (`Kasm/Code/Receipt.lean`) with `bloom_filter.asm`, `rlp/num_bytes.asm`, `memory/memcpy.asm` | execution of `process_receipt` up to the insertion and from its return (`Kasm/Receipt.lean`): inductions over logs, topics and data, from the state of logs `LogsAre` that C135 maintains |

Where the code violates a property the negation is proved with a concrete witness
and the strongest guarded version is proved under a name ending in `_partial`.

## Findings (properties the code violates)

* C05: keys one of which is a prefix of another (variable length keys): `get` may
  return another key's value or panic, `insert` may store under the wrong key,
  `delete` may lose a value or panic.
* C08: `create_trie_subsets` keeps the root marked as touched after a non-empty key
  set, so a later empty key set does not give the hash-only trie.
* C10: the derived `Clone` shares the hash cell; `extend` that fails half-way does
  not reset it. Both make `hash()` return a stale root.
* C47: when a delete is refused the error path merges the key prefix into a `Nibbles`
  that can exceed 64 nibbles and panics.
* C48: `CollapseToExtension` gives a wrong root if the orphaned hash is that of a leaf
  or extension node.
* C15: inserting transaction 0 after transactions 128 and 129 panics in `get` (the RLP
  key of 0 is a prefix of the key of 128).
* C26: `World::create_storage` on an existing account replaces its storage trie without
  updating the account's storage root (the decoder itself never does this).
* C51: the pre-execution hook runs whenever the transaction index is 0, so a block
  without transactions (two padding batches) runs it twice.

* C17: `Smt::get` panics (`unreachable!`) for an absent key whose path runs into an empty
  subtree (in particular on the empty tree), and only then.
* SMT key shifts (`Verif/Smt/Key.lean`): `remove_key_bits` shifts a limb by 64 when two keys
  share at least 252 path bits; this panics in a build with overflow checks.
* `Bits::push_bit` on a full (256 bit) string silently drops the first bit (`C20_push_full`).
* `Smt::set_hash` below an opaque hash overwrites it silently; deleting an entry whose sibling
  is an opaque hash panics (`set_spec'` gives the exact condition).
* C61: in `Type2World`, removing the only entry next to a hashed-out leaf gives a root that is
  not the root of the updated state, without an error.
* C53 (CDK): `do_scalable_hook` takes `world.root()` after it has written block number and
  timestamp, so the root stored for the previous block is not the root before the block; the
  kernel (`cdk_pre_execution.asm`) stores the root before the block.
* `wire.rs`: a CBOR balance of more than 32 bytes panics in `U256::from_big_endian` instead of
  being a parse error.

* C30: an interval whose ends are a number and a hash (or two hashes in the other order of
  resolution) of the same block is rejected although it has one block; an end of `u64::MAX`
  overflows.
* C31: `parse_range_exclusive` ignores everything after a second `..` (`"1..2..x"` is read as
  `1..2`).
* C62: `BlockProverInput::prove` awaits its tasks with `try_join_all(..).await?` and
  `let _ = try_join(..).await?`; the results inside (`Result<(), _>` of each task) are
  discarded, so a failed segment task is left out of the block proof, which succeeds.
* C64: the verifier binary exits with success when a proof does not verify.
* C65, C66: `use_test_config` is not part of the digest; after one run with the test configuration
  later runs without it load the low-security circuits from the cache, prover and verifier alike.
* C67: circuit files are written one by one, the base file first; after a crash in between,
  on-demand runs initialize successfully and fail at every proof (`load_table_circuits` turns the
  missing file into `None`).
* C69: `CachedProvider::get_block` (not called in this repository; callers go through `Arc` and get
  the uncached trait method) looks blocks up by number after translating the hash.
* C34: a crash between the creation of a proof file and its writing leaves an incomplete file
  (phase `created` of `Zero/Chain.lean`); a block batch size of 0 panics.
* C37: for DIV by zero the constraints set the flag for a zero modulus and then only demand
  dividend = remainder + quotient, without reducing the remainder; every quotient up to the
  dividend is accepted, e.g. 5 / 0 = 5 (`Stark/Arith/Export.lean`, `C37_div_violated`).
* C40: the same for SHR by 256 or more bits, e.g. 5 >> 256 = 5 (`C40_shr_violated`).
* C70: a row with the range check flag carries its opcode in a free column. Nothing excludes the
  opcode of an arithmetic operation there, so that the lookup of the CPU's ADD 1 1 = 3 finds such
  a row (`C70_impersonation`).
* C42: no constraint covers the first row of the memory table. A read there may return any value
  (`Stark/Memory/Claims.lean`, `C42_violated`). In the composed system the first address is
  normally context 0, segment Code, offset 0, which is pre-initialised.
* C43: the selection of final values has four gaps (`Stark/Memory/Claims.lean`). A padding read
  that is not real may follow the last operation and its value is then not handed over
  (`C43_violated_dropped`). In pre-initialised segments the selection is only constrained by a
  product with the filter, so an overwritten value can be handed over (`C43_violated_old_value`).
  The list of stale contexts is not constrained at all (`C43_violated_stale`). The weights of that
  list are not boolean, so that 1 and -1 cancel (`C43_violated_weights`).
* C44: constant propagation computes BYTE with `U256::byte`, which counts from the least
  significant byte; PUSH 0x1234, PUSH 31, BYTE becomes PUSH 0 (`Kernel/OptClaims.lean`,
  `C44_violated_byte`). The kernel uses BYTE on computed values only. De Morgan's rule accepts
  DUP1 as second operand, which then duplicates the operand before its negation
  (`C44_violated_de_morgan`; the repository's own test `test_demorgan1` expects such a rewrite).
  A jump in front of a global label is removed even if a local label of the same name takes
  precedence (`C44_violated_labels`).
* C45: `U256 << U256` panics for shifts of 2^64 or more, so does constant propagation.
* C72: `combine_cycles` iterates over a `HashMap`. For patterns with two repeated entries the
  order can decide between paths of equal cost (`Kernel/StackClaims.lean`, `C72_violated`). A
  simulation outside Lean of the patterns in the kernel sources found none that is affected.
* C73: `BlockMetadataTarget::conditional_assert_eq` leaves out blob gas used, excess blob gas and
  the parent beacon block root, so segments of one batch may be proven with different ones
  (`Recursion/Claims73.lean`, `C73_violated_metadata`). Next to a dummy right child the aggregate's
  burn address is free (cdk_erigon, `C73_violated_burn`).
* C74-C76: `connect_extra_public_values` does not connect the checkpoint's consolidated hash, neither
  does the block circuit, so that a proof of two blocks shows any checkpoint hash. The chain id is not
  connected between blocks. The roots before of a first block are those of the dummy parent.
* C78: batch, block and wrapper circuits verify proofs of cyclic circuits without checking the
  verifier key these carry as public inputs; `verify_block_wrapper` cannot check it either, as the
  wrapper does not show it. A circuit of the right shape with another key can stand for any
  aggregation below (`C78_violated_forgery`). `verify_block` and `verify_two_to_one_block` check the
  outermost key only.
* C79: without eth_mainnet `set_block_metadata_target` does not write three fields;
  `from_public_inputs` truncates limbs to 32 bits, so that different public inputs read the same.
* C80: `RecursiveCircuitsForTableSize::to_buffer` writes only the first shrinking circuit's common
  data and `from_buffer` uses it for all; chains of two or more shrinking circuits do not come back
  (`Recursion/Claims80.lean`, `C80_violated_common`). With cdk_erigon the burn address is written as an
  array and read as a vector (`C80_violated_burn`).
* C82: `observe_public_values` leaves out the registers, which are used in the lookup sums; the word on
  top of the stack at the start is constrained by nothing else, so a prover who knows the challenges
  can choose it to reach any sums (`Recursion/Claims82.lean`, `C82_violated_forge`).
* C84: `from_bytes` reads the dummy proofs with `.ok()?`, so that a file cut there is accepted without
  them (`C84_violated_dummies`).
* Not a property of its own: `u256_to_h160` accepts numbers of 161 to 167 bits; `prove_block` computes
  `low_u64() - 1`, which underflows for the genesis block.

* C85: `eval_packed_generic` of `keccak_stark.rs` (266-426) has no constraint that makes the columns
  C, C', A' or the bits of A''[0, 0] boolean. For every input and every two field elements there is an
  accepted table whose only input is the given one and whose output has the two elements as its
  first lane, the first eight bytes of a hash (`C85_violated_forge`).

- **Digest cells are not range-checked (C89).** `keccak_sponge_stark.rs` range-checks the block bytes only. The 32 cells of the
  updated digest enter the Keccak lookup as little-endian words and the CPU lookup as big-endian words. Field elements that are not bytes
  can give any pair of values: for any string and any eight words there is an accepted table that shows these words as its hash
  (`C89_violated_digest`).
- **Padding is not constrained in the last row of the sponge table (C89).** The constraints on the padding bytes are transition
  constraints, so a string that ends in the last row may have any padding block (`C89_violated_padding`, `C89_violated_last_row`).
- **Blocks of one string share a timestamp (C89).** The lookups of inputs and of outputs in the Keccak table are separate, and
  are matched by timestamp only. A string of at least three full blocks can get the hash of the string with two blocks exchanged
  (`C89_violated_order`, `C89_violated_swap`).

- **Operation flags are not tied to their opcodes for arithmetic (C91).** `decode.rs` leaves the opcodes of `binary_op`, `ternary_op`,
  `fp254_op` and `shift` to the lookup into the arithmetic table, but `ctl_arithmetic_base_rows` uses one filter for all of them. `ADD`
  can be executed as a ternary operation that pops three elements (`C91_violated`), and user code can execute MULFP254 as a binary operation
  (`C91_violated_user`).
- **The program counter after PUSH is free (C92).** `control_flow.rs` excludes PUSH ("need to increment by more than 1") and
  the 32-byte memory operations from the native instructions, and nothing else constrains the next program counter or mode
  (`C92_violated`). After JUMP and JUMPI the next mode is free: user code can go on in kernel mode (`C92_violated_mode`). After MSTORE_GENERAL
  the next stack length is free (`C92_violated_len`).
- **Nothing is said about the first row (C93).** The constraints on the entry point apply to a padding row followed by an executed one,
  which `halt.rs` excludes. Execution can start anywhere, with any stack (`C93_violated_start`), and need not start at all
  (`C93_idle`). The constraint at `control_flow.rs:64-65` is identically zero.
- **Padding rows can write to memory (C94).** `halt.rs` disables the general purpose channels in padding rows but not the partial channel:
  any value can be written to any address, any number of times, by a table that executes nothing (`C94_forge`).
- **The prover chooses whether the new top is read (C94).** POP, MSTORE_GENERAL and the context operations use `stack_inv_aux`, the product of a length and
  the prover's `stack_inv`, as filter for reading the new top. With `stack_inv = 0` nothing is read and the new top is free
  (`C94_violated_pop`; other instructions use the length itself). GET_CONTEXT skips writing back the old top in the same way; if it writes,
  the value in channel 2 is not compared with the old top.
- **Free channels (C94).** Operations that push leave channel 2 and channel 0 of the next row unconstrained (`free2`, `freeNext` in `Cpu/Ops.lean`): they may write
  anything. The condition of JUMPI is not constrained to be read from the stack. What PUSH pushes in kernel mode is not looked up.

- **Shifts by 2^32 or more are free (C95).** `cpu/shift.rs` reads the factor `2^d` from the shift table only if the displacement is below `2^32`; otherwise
  channel 2 is unused, its value is not constrained (generation puts zero), and the lookup into the arithmetic table takes it as the factor. `2^255 + 3`
  shifted left by `2^32` may be 768 (`C95_violated`).

- **A prover can make accounts and slots look absent (C102).** `search_account` and `search_slot` (`asm/mpt/linked_list/linked_list.asm:261-290`, `787-836`)
  take the not-found branch as soon as the node the prover names is the start of the list or has a smaller
  key; they do not look at the node after it, as insertion does. A prover who names the start makes any
  account read as absent and any slot read as 0. (Shown by `C102_reads_violated`.)
- **A prover can keep the storage of a deleted account (C104).** `remove_all_account_slots` (`asm/mpt/linked_list/linked_list.asm:902-914`) checks only that the named node does
  not belong to the account, not that it is the one before the account's slots; naming another one, or a
  removed node, leaves the storage of a deleted account in place. (Shown by `C104_removal_violated`.)

- C105: `%get_valid_addr_ptr` and `%get_valid_storage_ptr` (`asm/core/access_lists.asm:76-90`, `222-233`) check the prover's
  pointer against the end of the list but not against its beginning. A pointer to lower memory of the kernel's
  context (trie data, transaction fields, code) that holds the address at an even position makes the address
  count as warm; for a storage key, the place of the original value is then elsewhere too. (Shown by
  `C105_access_violated`.)

- C106: `jumpdest_analysis` (`asm/core/jumpdest_analysis.asm:237-248`) does not bound the position the prover supplies with
  an address. Position `2^256 - k` leads to memory of a lower context (`ADD` wraps around), for instance the
  caller's stack. `loop` takes a word there for an opcode and `%add_const(code_bytes_to_skip) %mload_kernel_code` adds it
  to the table's address without a bound, so the number of bytes to skip is any word of memory. Two words on the
  caller's stack are enough to make `0x5b` in the data of a `PUSH` of the called contract a jump destination.
  (Shown by `run_analysis_wrap` and `C106_jumpdests_violated`.) This is in the machine that refuses accesses to
  segments that do not exist; constraints that do not would allow more.
- C107: `verify_non_jumpdest` (`asm/core/jumpdest_analysis.asm:263-276`) asserts `proof <= addr`, but the walk begins at
  `proof + 32`. A position in `(addr - 32, addr]` makes the walk end before it has begun, no mark is set, and the jump
  to a valid destination is answered with a fault.
- C107: `invalid_jump_jumpi_destination_common` (`asm/core/exception.asm:136-140`) goes to the fault for every destination above
  `MAX_CODE_SIZE` = 24576, but init code may have 49152 bytes (`MAX_INITCODE_SIZE`), with jump destinations above.
  (Both shown by `C107_invalid_jump_violated`.)

- C109: `modmul_bignum` (`asm/bignum/modmul.asm:107-143`) multiplies only the low `len` limbs of the prover's quotient, throws away the
  carry of the sum and compares only the low `len` of `2 * len` limbs. So `x + k * m = a * b` is checked modulo
  `2^(128 len)` only, and for an odd modulus `k = (a b - x) / m` modulo that power passes for every `x < m`: the prover
  chooses the result of a modular multiplication freely, whatever `a` and `b` are (`C109_any_result`). Nothing checks that
  the limbs are below `2^128` either.

- C111: because of C109 the result of `modexp_bignum` (`asm/bignum/modexp.asm`), and with it of the MODEXP precompile, is
  the prover's choice for every odd modulus above 1 and every exponent but 0: the last round always multiplies, and the
  prover supplies that product (`C111_any_result`; example: 2^3 mod 5 = 0).

- C112: `sys_blobbasefee` (`asm/memory/metadata.asm:316-323`) pushes `PROVER_INPUT(blobbasefee)` without any check, so the
  prover chooses what BLOBBASEFEE gives (`C112_blobbasefee_any`). `%compute_blob_gas_fee` (`asm/transactions/type_3.asm:105-111`)
  takes the price that blob transactions pay from the same unchecked input (C130).

- **Calls without the gas for their price can go on (C114).** `call_charge_gas` (`core/call_gas.asm:28-62`) charges the sum of the price and the gas passed on. When the price is more than what remains, the gas passed on is taken to be the 256-bit number the caller asked for, so that the sum should exceed the limit; but `%charge_gas` shifts the sum into the top 64 bits of the counter, modulo `2^64`. A caller with less than 100 gas left that asks for `2^64 - 100` gas is charged nothing and does not fault; the callee is to run with a limit of `2^64 - 100` gas (`C114_unpaid`). At depth 1025 the whole instruction ends with the caller still running where the EVM is out of gas (`C114_not_faulted`).

- **A prover can drop writes of zero (C115).** `sload_current` (`mpt/storage/storage_read.asm:7-15`) reads through `search_slot`, so with the start of the list as hint it gives 0 for any slot (C102). `SLOAD` then gives 0 to the program (`C115_sload_violated`), and `SSTORE` of 0 takes the new value for the current one and ends at `sstore_noop` with the old value still in the slot (`C115_sstore_violated`).

- **The upfront cost of a transaction wraps (C117).** `process_normalized_txn` (`core/process_txn.asm:41-49`) compares the balance with `gas_limit * price + value` computed with `MUL` and `ADD`, that is modulo 2^256, and `buy_gas` takes the product modulo 2^256. Gas limit 2^16 and gas price 2^240 cost nothing: the kernel executes the transaction of an account without balance (`C117_overflow_violated`), and the unused gas and the beneficiary's fee are paid out at that price afterwards.
- **EIP-1559's balance check uses the wrong fee (C117).** The balance is compared with the effective price, not `max_fee_per_gas` (`core/process_txn.asm:44-48`), so the kernel executes transactions that other clients reject (`C117_maxfee_violated`).
- **Invalid transactions do not stop the kernel (C117).** `invalid_txn` jumps to `txn_loop_after` with success 0 and all gas left over (`core/process_txn.asm:517-539`): a block with an invalid transaction can be proven, the transaction counting as one without effect (`C117_sound_partial`), whereas Ethereum's rules make the whole block invalid. The gas limit is compared with that of the block, not with what earlier transactions left of it (line 21-24).

- **A prover can wipe any account that receives ether (C118).** `add_eth` looks the recipient up with `search_account`, which answers that there is no such account whenever the prover names the start of the list (`mpt/linked_list/linked_list.asm:273-279`, C102). It then writes a new record with nonce 0, no code and just the amount as its balance, and inserts it with `insert_account_with_overwrite` (`core/transfer.asm:86-105`), for which an honest hint suffices. So whatever account receives something, a contract for instance, loses its balance, nonce and code (`C118_wiped`, for every state; `C118_wiped_violated` is a run).
- **A transaction can mint ether (C119).** The price taken in advance is computed modulo 2^256 (C117), but the tip and the price of the unused gas are paid out at the full price (`core/process_txn.asm:361-377`). With gas limit 2^16 and gas price 2^240 the account of a sender (who is the beneficiary) goes from 0 to 2^256 - 147140 wei (`C119_minted_violated`). Clients reject such a transaction, but the kernel is what a proof is about.

- **An old contract can be destroyed after a failed creation (C120).** `%create_contract_account` appends the address to the list of created contracts before it looks for a collision (`core/create_contract_account.asm:4-40`), and nothing takes it off the list when there is one. A contract that holds the creator of an old contract can call CREATE2 with the old salt and code, and a SELFDESTRUCT of the old contract later in the transaction then deletes it, against EIP-6780 (`C120_violated`, `C120_old_contract_destroyed`).
- **A SELFDESTRUCT without journal entry (C120).** With balance 0 and a recipient that does not exist no entry is written (`core/terminate.asm:126-139`), although the contract has been put on the list of accounts to delete; when the call is reverted it stays there (`C120_unlogged`).
- **A prover can keep destroyed contracts (C121).** Both routines for the end of a transaction skip an account that `mpt_read_state_trie` does not find, and a prover that names the start of the list is believed (`C121_denied`, `C121_violated`).

- **A reverted SELFDESTRUCT still deletes the contract (C122).** The missing entry described for C120 has an effect: the contract destroys itself in a call that is reverted, the journal goes back to where it was, and the contract is still on the list of accounts to delete (`C122_selfdestruct_stays`, `C122_violated`).

- **Empty code can be refused (C123).** `after_constructor` reads the first byte of the creator's return data without looking at its size. If the constructor returns nothing and an earlier call of the creator returned data that began with 0xEF, that byte is still there, and the creation fails (`C123_violated`).
- **Return data after a refused creation (C123).** `create_first_byte_ef` and `create_code_too_large` do not reset the size of the return data, as `create_oog` does: the creator sees the refused code as return data (`C123_refused`, `C123_return_violated`).
- **A prover can drop the code of a new contract (C123).** `set_codehash` does not check that `mpt_read_state_trie` found the account. If the prover names the start of the list, the hash is written to a cell of no account, and the creation succeeds with an account without code (`C123_denied`, `C123_prover_violated`).

- **Transient storage confuses entries (C124).** The array holds three cells per entry (address, slot, value), but `search_transient_storage_loop` goes on by one cell. A contract that stores in a slot whose number is the address of another contract plants an entry for that contract: after 7 stores 6 in its slot 5 and 8 stores 1 in its slot 1, contract 5 reads 8 from its slot 6 (`C124_violated`), and if 5 stores 9 there, 8 loses its slot 1 and 9 has it (`C124_moved`).

- **A leaf of the transaction trie can be shorter than the transaction executed (C127).** `read_rlp_to_memory` stores whole words, up to 31 bytes more than the length that the prover gives, and the decoders use neither that length nor that of the outer list. A prover that gives 97 as the length of the 110 bytes of a legacy transaction gets the first 97 as the leaf, and the whole transaction executed (`C127_truncated_violated`). The transaction root then commits to bytes that are no transaction. (The signature is still checked; a leaf that is a well-formed legacy transaction is the one executed, `C127_in_trie_partial`.)

- **The original value of a slot in an access list can be recorded as 0 (C129).** `insert_accessed_storage_keys_with_original_value` takes the value from `search_slot`, which gives the default for any earlier node as hint (C102), and stores it as the original one, over an earlier one if the key is listed twice. The original value decides gas and refunds of later stores (C115). `C129_violated` has a slot that holds 8 and 0 recorded.

- **The price of blob gas is whatever the prover says (C130).** `%compute_blob_gas_fee` multiplies by `PROVER_INPUT(blobbasefee)`. Nothing compares that with the block, whose excess blob gas the kernel has as `GLOBAL_METADATA_BLOCK_EXCESS_BLOB_GAS`, nor with the transaction's `max_fee_per_blob_gas`, which is stored in `TXN_FIELD_MAX_FEE_PER_BLOB_GAS` and never read. So a prover can spare a sender the fee or take any multiple of 2^17 wei per blob from them. `C130_any_price` has the sender pay every price up to all they have, with a `max_fee_per_blob_gas` of 0; `C130_violated` concludes that no price fixed by what the kernel knows is charged. `sys_blobbasefee` (`memory/metadata.asm:316-324`) gives contracts the same unchecked input.

- **A rejected blob transaction still burns its blob fee (C131).** `type_3.asm` takes the fee from the sender (`%deduct_eth`) as soon as the sender is recovered and then jumps to `process_normalized_txn`, which compares nonce, fees, gas and chain. A transaction that fails there goes on to `txn_loop_after` as one without effect, but the fee is gone: there is no checkpoint to return to. So a prover who chooses the transactions of a block can put a signed blob transaction into it again, with its old nonce, and takes the fee each time, at a price the prover chooses (C130). `C131_pays` gives the exact effect, `C131_burnt` a case where the sender loses 917504 of 1000000 wei to a transaction with too little gas.

- **Refusing a transaction while reading it leaves words on the stack (C132).** `invalid_txn`, `invalid_txn_1`, … take off one word, two words, … and jump to `txn_loop_after`, which expects the gas used so far, the number of the transaction and its key right below. The numbers are right for the jumps in `process_normalized_txn`, but the routines that read a transaction jump there as well, with their own words (and the return address) still on the stack: after a recipient of 19 bytes the loop takes an address in the RLP memory for the gas used so far, and two more words for the number and its key. So these transactions are not skipped as is intended; with them the gas used by a block cannot come out right (`C132_partial`, `C132_no_blobs`, `C132_violated`).

## Modelled / not modelled

### mpt_trie (`Verif/Mpt`, `Verif/Rlp`)
Modelled: `trie_ops.rs` (insert, extend, get, delete with both orphan strategies,
iteration), `trie_hashing.rs`, RLP encoding, hex-prefix encoding,
`trie_subsets.rs` (single and multiple extraction), the `Arc<RwLock>` hash cells of
`HashedPartialTrie`. Not modelled: `debug_tools`, serde, the in-place `Arc` sharing of
`StandardTrie` (tries are values), concurrent access to the cells.

### mpt_trie `nibbles.rs` (`Verif/Nibbles`)
Modelled: `Nibbles` as count and `U320` (a `Nat`), every read/pop/push/split/merge/
compare operation, big-endian byte, `H256` and integer conversions, hex-prefix encoding
and decoding, `Display`/`FromStr`. `none` stands for a panic or error. Not modelled:
`as_byte_slice`, little-endian constructors, `Debug`, `UpperHex`.

### mpt_trie `special_query.rs`, evm_arithmetization `tries.rs`
Modelled: `path_for_query` as its iterator state machine (`Mpt/Query.lean`),
`reporting_remove` and the collapse test (`Mpt/Collapse.lean`), `MptKey` constructors and
the transaction/receipt trie inserts (`World/Keys.lean`).

### trace_decoder `core.rs`, evm_arithmetization `world.rs` (`Verif/Decoder`, `Verif/World`)
Modelled: `batch`, `Hash2Code`, `middle` (transactions, traces, code usage, masks,
withdrawals, both pre-execution hooks), the counters and roots of `entrypoint`, the
`World` trait (`World/Ops.lean`) and `Type1World` (`World/Type1.lean`). Parameters: the
receipt decoders, keccak. Counters are unbounded naturals; `U256` is `BitVec 256` with
overflow as an error. Not modelled: the observer, checkpoint hashes and block metadata
copied verbatim.

### kernel assembly (`Verif/Kasm`)
The files under `Verif/Kasm/Code` are the assembly sources transcribed item by item: one
definition per macro without labels, one list of instructions per label (code up to the next
label; falling through is explicit). Macros that contain labels are expanded in place with
fresh labels; constants and segment numbers are those the Rust sources define, with feature
`eth_mainnet`. The transcription (by a script) is trusted, as is the reading of the macro
language; the compilation of `%stack` is the subject of C46. `Kasm/Machine.lean` gives the effect of each
instruction in kernel mode: stack, memory by address, current context, prover inputs. Prover
inputs are an arbitrary stream, so theorems quantify over every prover. Label addresses are an
injective map. Not modelled: `SET_CONTEXT`, `GETPC` (the machine is stuck there), accesses to
segments that do not exist (stuck), stack overflow, gas of kernel instructions (zero).
Keccak is a parameter. Transcribed so far: SDIV/SMOD/SIGNEXTEND/SAR/BYTE/SLT/SGT, EXP, the linked lists of
accounts and slots, the access lists and their journal entries, jump destination analysis, long integers
(`bignum/*.asm` with modexp), block copying (`memory/memcpy.asm`, `memset`, packing), the environment
instructions and the memory instructions. That `mstore_unpacking` is a table of 32 entries of three
bytes each is a hypothesis (`Prog.Copies`), because its entries are reached by computed addresses. Not transcribed:
curves, precompiles other than modexp's arithmetic, RLP, MPT, transactions, calls and creates, EXTCODECOPY.

### smt_trie (`Verif/Smt`)
Modelled: `Key` (split, join, remove_key_bits), `Smt` set/get/delete/set_hash over the node
database (`Smt/Model.lean`). Poseidon is a parameter `H`; hypotheses about it range over the
nodes in the database at hand. Refinement to an inductive tree (`Smt/Tree.lean`,
`Smt/SetSpec.lean`). Also modelled: the partial tree of a witness (`Smt/Partial.lean`,
`Smt/Build.lean`), `bits.rs` as `U256` arithmetic (`Smt/Bits.lean`), code hashing
(`Smt/Code.lean`), account keys (`Smt/Keys.lean`), `serialize_and_prune` and
`hash_serialize` (`Smt/Serialize.lean`; the recursion depth of `hash_serialize` is a
parameter, 257 suffices). Not modelled: Poseidon itself, serde.

### trace_decoder `wire.rs`, `type2.rs`, evm_arithmetization `Type2World` (`Verif/Wire`, `Verif/World/Type2.lean`)
Modelled: the witness parser byte by byte (`Wire/Parse.lean`; `ciborium` is a parameter, with
the RFC 8949 reader as an instance), the SMT frontend (`Wire/Type2.lean`: `fold`, `visit`),
`Type2World` with its maps as sorted association lists, the MPT frontend (`Wire/Type1.lean`:
`execute`, `visit`, `node2storagetrie`, followed by `Type1World::new`). Not modelled: the text of error messages.

### zero (`Verif/Zero`)
Modelled: block intervals and their streams (`Interval.lean`; the RPC node is a parameter),
`parse_range_exclusive` (`Parse.lean`; strings are lists of characters), the retry layer
(`Retry.lean`; time and jitter are not modelled), `BlockProverInput::prove` (`Aggregate.lean`;
paladin's `fold` is assumed to combine neighbours of its stream, in any bracketing; proofs are
trees that record what they were made from), `prove` (`Chain.lean`; a transition system whose
steps are the atomic effects of its tasks; block proofs are abstract), the pre-check and the
verifier's `main` (`Resume.lean`), names of circuit files (`Config.lean`), the cache directory
(`Cache.lean`; circuit generation and plonky2 serialization are parameters; runs do not overlap),
previous block hashes (`PrevHashes.lean`; `buffered` keeps the order; a target block 0, where the
concurrency is 0, is outside), the block cache (`Provider.lean`). Not modelled: paladin, tokio,
metrics, the remaining RPC conversions.

### evm_arithmetization `arithmetic` (`Verif/Stark`)
Modelled: all constraints of the arithmetic table (`eval_packed`), its range counter and lookup,
and the columns it shares with the CPU table; the generation of the table (`Arith/Gen.lean`), with
`i64`, `u64` and `BigInt` values as integers (that no `i64` overflows is not proved). Not modelled: the
circuit versions (`eval_ext_circuit`).

### evm_arithmetization `logic.rs`, `memory/memory_stark.rs` (`Verif/Stark/Logic.lean`, `Verif/Stark/Memory`)
Modelled: all constraints of both tables, the range lookup and the stale context lookup of the
memory table, generation of the logic table. A lookup is taken to mean that for every value the
weights of the looking columns add up to the frequency of that value (`Stark/Lookup.lean`); filters
are not assumed boolean. Not modelled: the circuit versions, the cross-table lookups.
Generation of the memory table (`Gen.lean`), the interpreter's memory and its listing, and the continuation tables (`Handover.lean`) are modelled too;
of the interpreter only what its memory operations do to memory. Preinitialised segments outside memory appear as the values that reads return.

### evm_arithmetization `cpu/kernel` (`Verif/Kernel`)
Modelled: the optimizer with its loops and cost estimates (`Optimizer.lean`), the expansion of
`%stack` with the search, its priority queue (`BinaryHeap` of the standard library, step by step)
and the permutation functions (`StackSearch.lean`, `Perm.lean`; hash map iteration order is a
parameter). Specification: a small-step semantics of kernel items (`Ast.lean`) in which labels are
symbols, memory, storage and system instructions are arbitrary functions, and GETPC is not covered.
Not modelled: the parser. Mnemonics are an enumeration rather than strings; the numbers of CPU and
memory columns in the cost function are literals.

### evm_arithmetization `fixed_recursive_verifier.rs`, `recursive_verifier.rs`, `get_challenges.rs`, `verifier.rs`, `proof.rs` (`Verif/Recursion`)
Modelled: every constraint the aggregation, batch, block, wrapper and two-to-one circuits put on public
values (`Circuits.lean`), how the provers fill in public values and dummies (`Prover.lean`), the layout of
public inputs and the limb conversions (`Native.lean`, `Layout.lean`, `Limbs.lean`), the elements given
to the challenger and the additional memory rows on both sides (`Transcript.lean`), serialization of all
circuits (`Buffer.lean`). A setup (`Setup`) has as parameters which segments have root proofs, which
public inputs foreign circuits accept, the verifier keys, labels and the hash.
Assumed of plonky2: a proof verifies for a circuit only if (and, for C83, if) its constraints can be met;
`select`, `conditional_assert_eq`, `range_check`, `conditionally_verify_cyclic_proof(_or_dummy)` mean what
they are documented to mean; `write_x` and `read_x` of its primitive types round-trip (`Plonky`). The sums
of lookups are those of starky (product of two challenges, `combine`). Not modelled: the root circuit's
verification of the table proofs, FRI, hashing, the shrinking circuits' proofs.

### evm_arithmetization `keccak` (`Verif/Stark/Keccak`)
Modelled: `keccak_stark.rs` (`eval_packed_generic`, the cross-table columns and filters, trace
generation with its height), `round_flags.rs`, `logic.rs`, `constants.rs`, `columns.rs`.
Specification: `Spec.lean`, Keccak-f[1600] bit by bit after FIPS 202, checked in `Kat.lean` against
the Keccak-256 digest of the empty string (evaluated by the kernel).
Not modelled: `eval_ext_circuit` (the recursive copy of the constraints), the STARK prover. The inputs of generation
are lists of words; words beyond 25 are ignored and missing ones are 0, where the code has an array.

### evm_arithmetization `byte_packing`, `witness/util.rs` (`Verif/Stark/BytePacking`)
Modelled: `byte_packing_stark.rs` (constraints, lookup, cross-table columns and filters, generation),
`byte_packing_log`, `byte_unpacking_log`. Not modelled: `eval_ext_circuit`, the STARK prover.

### evm_arithmetization `keccak_sponge`, `cpu/kernel/keccak_util.rs` (`Verif/Stark/Sponge`)
Modelled: `keccak_sponge_stark.rs` (constraints, lookup, cross-table columns and filters, generation), `keccak_util.rs`,
`xor_into_sponge`, `keccak_sponge_log`, `push_keccak_bytes`. The Keccak table next to it is idealised as a list of states with their
permutations (C85 and C86 are about that table). Not modelled: `eval_ext_circuit`, the STARK prover, `tiny_keccak`, `keccak_hash`.

### evm_arithmetization `cpu` (`Verif/Stark/Cpu`)
Modelled: all constraints of the CPU table (`eval_packed_generic` of every module, without the feature `cdk_erigon`), the columns it
sends to the memory table, the lookups into the arithmetic and logic tables (as: every looked-up row is exported by the other
table). The offsets of labels in the assembled kernel are parameters. Not modelled: `eval_ext_circuit`, the lookups into the byte packing and Keccak sponge tables,
the read of opcodes, generation of CPU rows.
