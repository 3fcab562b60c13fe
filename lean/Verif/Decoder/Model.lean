import Verif.World.Ops
/-!
# The trace decoder (`trace_decoder/src/core.rs`), generic over the world

Simplifications, stated once: `BTreeMap`s and `BTreeSet`s that are only iterated or extended are lists
in iteration order (duplicates allowed); `usize`/`u64` counters are unbounded naturals; the observer
is dropped; the two receipt decoders are parameters (any functions).
-/
namespace Verif.Decoder
open Mpt (Key Bytes Node H256)
open World

/-- `ContractCodeUsage`. `trace_decoder/src/interface.rs:157-164`. -/
inductive CodeUsage where
  | read (h : H256)
  | write (code : Bytes)
deriving DecidableEq

/-- `TxnTrace`. `trace_decoder/src/interface.rs:120-148`. -/
structure Trace where
  balance : Option U256 := none
  nonce : Option U256 := none
  storageRead : List H256 := []
  storageWritten : List (H256 × U256) := []
  codeUsage : Option CodeUsage := none
  selfDestructed : Bool := false
deriving DecidableEq

/-- `TxnInfo` with its `TxnMeta`. `trace_decoder/src/interface.rs:85-95, 99-114`. -/
structure Txn where
  traces : List (Addr × Trace) := []
  byteCode : Bytes := []
  receipt : Bytes := []
  gasUsed : Nat := 0

/-! ## batch -/

/-- `chunks(n)` of `itertools`: consecutive groups of `n`, the last one possibly shorter. -/
def chunks {α} (n : Nat) (l : List α) : List (List α) :=
  if _h : l = [] ∨ n = 0 then [] else l.take n :: chunks n (l.drop n)
termination_by l.length
decreasing_by
  have h1 : l ≠ [] := fun h => _h (.inl h)
  have h2 : n ≠ 0 := fun h => _h (.inr h)
  have : 0 < l.length := List.length_pos_iff.2 h1
  simp only [List.length_drop]; omega

/-- `batch`. `trace_decoder/src/core.rs:275-300`. -/
def batch (txns : List Txn) (hint : Nat) : List (List (Option Txn)) :=
  let hint := max hint 1
  let txns := txns.map some
  let nBatches := (chunks hint txns).length
  if 2 ≤ nBatches then chunks hint txns
  else if 2 ≤ txns.length then
    [txns.take (txns.length / 2), txns.drop (txns.length / 2)]
  else (txns ++ List.replicate (2 - txns.length) none).map (fun t => [t])

/-! ## Hash2Code -/

/-- `Hash2Code`. `trace_decoder/src/core.rs:800-804`. -/
abbrev Hash2Code := H256 → Option Bytes

/-- `Hash2Code::insert`. `trace_decoder/src/core.rs:818-820`. -/
def Hash2Code.insert (hash : Bytes → H256) (m : Hash2Code) (code : Bytes) : Hash2Code :=
  fun h => if h = hash code then some code else m h

/-- `Hash2Code::new`. `trace_decoder/src/core.rs:807-814`. -/
def Hash2Code.new (hash : Bytes → H256) : Hash2Code := Hash2Code.insert hash (fun _ => none) []

/-- `Extend::extend`. `trace_decoder/src/core.rs:824-828`. -/
def Hash2Code.extend (hash : Bytes → H256) (m : Hash2Code) (codes : List Bytes) : Hash2Code :=
  codes.foldl (Hash2Code.insert hash) m

/-- `FromIterator`. `trace_decoder/src/core.rs:831-837`. -/
def Hash2Code.fromIter (hash : Bytes → H256) (codes : List Bytes) : Hash2Code :=
  Hash2Code.extend hash (Hash2Code.new hash) codes

/-! ## middle -/

/-- `storage_masks`. `trace_decoder/src/core.rs:437`. -/
abbrev Masks := List (Addr × List Key)

/-- `storage_masks.entry(addr).or_default().extend(ks)`. -/
def addMask : Masks → Addr → List Key → Masks
  | [], a, ks => [(a, ks)]
  | (b, l) :: m, a, ks => if b = a then (b, l ++ ks) :: m else (b, l) :: addMask m a ks

/-- What the surrounding code provides: keccak, `map_receipt_bytes`
(`trace_decoder/src/core.rs:787-794`), the `status` of `decode_receipt`
(`evm_arithmetization/src/generation/mpt.rs:81-97`), and `FatalMissingCode`. -/
structure Env where
  keccak : Bytes → H256
  mapReceipt : Bytes → Except Err Bytes
  status : Bytes → Except Err Bool
  fatalMissingCode : Bool

/-- The mutable variables of `middle` that live across batches. `trace_decoder/src/core.rs:413-421`.-/
structure St (W : Type) where
  world : W
  code : Hash2Code
  txnTrie : Node := .empty
  rctTrie : Node := .empty
  txnIx : Nat := 0
  loopIx : Nat := 0
  withdrawals : List (Addr × U256)

/-- The mutable variables of one batch. `trace_decoder/src/core.rs:423-438`. -/
structure Loc (P : Type) where
  gas : Nat := 0
  byteCode : List Bytes := []
  contractCode : List Bytes := [[]]
  smasks : Masks := []
  pmask : List P := []

/-- `Batch` with `IntraBlockTries` and `TrieRoots` flattened. `trace_decoder/src/core.rs:324-337, 365-369`. -/
structure Batch (W : Type) where
  firstTxnIx : Nat
  gasUsed : Nat
  contractCode : List Bytes
  byteCode : List Bytes
  world : W
  txnTrie : Node
  rctTrie : Node
  stateRoot : H256
  txnRoot : H256
  rctRoot : H256
  withdrawals : List (Addr × U256)

/-- `H256::into_uint`. -/
def uint (h : H256) : U256 := BitVec.ofNat 256 (Rlp.beVal h.bytes)

section
variable {W P : Type} (I : Ops W P) (env : Env)

/-- The `code_usage` match. `trace_decoder/src/core.rs:527-553`. -/
def useCode (addr : Addr) (w : W) (code : Hash2Code) (cc : List Bytes) :
    Option CodeUsage → Except Err (W × Hash2Code × List Bytes)
  | none => .ok (w, code, cc)
  | some (.read h) =>
    match code h with
    | none =>
      if env.fatalMissingCode then .error .noCode
      else do return (← I.setCode w addr (.inr h), code, cc)
    | some b => do return (← I.setCode w addr (.inl b), code, cc ++ [b])
  | some (.write b) => do
    return (← I.setCode w addr (.inl b), code.insert I.codeHash b, cc ++ [b])

/-- The loop over `storage_written`; returns the reported keys. `trace_decoder/src/core.rs:555-564`. -/
def writeSlots (addr : Addr) : W → List (H256 × U256) → Except Err (W × List Key)
  | w, [] => .ok (w, [])
  | w, (k, v) :: l =>
    if v = 0 then do
      let (w, r) ← I.reportingDestroySlot w addr (uint k)
      let (w, rs) ← writeSlots addr w l
      return (w, r.toList ++ rs)
    else do
      let w ← I.storeInt w addr (uint k) v
      writeSlots addr w l

/-- `if let Some(new) = balance`. `trace_decoder/src/core.rs:521-523`. -/
def setBalance (addr : Addr) (w : W) : Option U256 → Except Err W
  | none => .ok w
  | some v => I.updateBalance w addr (fun _ => .ok v)

/-- `if let Some(new) = nonce`. `trace_decoder/src/core.rs:524-526`. -/
def setNonce (addr : Addr) (w : W) : Option U256 → Except Err W
  | none => .ok w
  | some v => I.updateNonce w addr (fun _ => .ok v)

/-- The `if do_writes` block; returns the keys reported by slot deletions.
`trace_decoder/src/core.rs:520-570`. -/
def doWrites (addr : Addr) (t : Trace) (w : W) (code : Hash2Code) (cc : List Bytes) :
    Except Err (W × Hash2Code × List Bytes × List Key) := do
  let w ← setBalance I addr w t.balance
  let w ← setNonce I addr w t.nonce
  let (w, code, cc) ← useCode I env addr w code cc t.codeUsage
  let (w, ks) ← writeSlots I addr w t.storageWritten
  return (w, code, cc, ks)

/-- `born`: create an empty storage. `trace_decoder/src/core.rs:496-502`. -/
def bear (addr : Addr) (w : W) : Except Err (W × Bool) := do
  if ← I.contains w addr then return (w, false)
  else return (← I.createStorage w addr, true)

/-- `if self_destructed`. `trace_decoder/src/core.rs:572-575`. -/
def destruct (addr : Addr) (w : W) (d : Bool) : Except Err (W × Option P) :=
  if d then do
    let w ← I.destroyStorage w addr
    I.reportingDestroy w addr
  else .ok (w, none)

/-- The writes, if there are any to do. `trace_decoder/src/core.rs:514-520`. -/
def writePhase (writes : Bool) (addr : Addr) (t : Trace) (w : W) (code : Hash2Code) (cc : List Bytes) :
    Except Err (W × Hash2Code × List Bytes × List Key) :=
  if writes then doWrites I env addr t w code cc else .ok (w, code, cc, [])

/-- Body of the loop over the traces of a transaction. `trace_decoder/src/core.rs:475-576`. -/
def applyTrace (receipt : Bytes) (addr : Addr) (t : Trace) (st : W × Hash2Code) (loc : Loc P) :
    Except Err ((W × Hash2Code) × Loc P) := do
  let status ← env.status (← env.mapReceipt receipt)
  let (w, born) ← bear I addr st.1
  let touched := (t.storageWritten.map (·.1) ++ t.storageRead).map
    (fun h => keyOfHash (env.keccak h.bytes))
  let writes := decide (t ≠ {}) && (!born || status)
  let (w, code, cc, ks) ← writePhase I env writes addr t w st.2 loc.contractCode
  let (w, p) ← destruct I addr w t.selfDestructed
  return ((w, code), { loc with
    contractCode := cc
    smasks := addMask loc.smasks addr (touched ++ ks)
    pmask := loc.pmask ++ I.pathOf addr :: p.toList })

/-- The loop over the traces of a transaction. -/
def applyTraces (receipt : Bytes) :
    List (Addr × Trace) → W × Hash2Code → Loc P → Except Err ((W × Hash2Code) × Loc P)
  | [], st, loc => .ok (st, loc)
  | (a, t) :: l, st, loc => do
    let (st, loc) ← applyTrace I env receipt a t st loc
    applyTraces receipt l st loc

/-- Recording the encoded transaction and its receipt. `trace_decoder/src/core.rs:462-473`. -/
def record (t : Txn) (txnTrie rctTrie : Node) (ix : Nat) (bc : List Bytes) :
    Except Err (Node × Node × List Bytes) :=
  if t.byteCode = [] then .ok (txnTrie, rctTrie, bc)
  else do
    let (tt, _) ← ofTrie (txnInsert txnTrie ix t.byteCode)
    let (rt, _) ← ofTrie (txnInsert rctTrie ix (← env.mapReceipt t.receipt))
    return (tt, rt, bc ++ [t.byteCode])

/-- Body of the loop over the transactions of a batch. `trace_decoder/src/core.rs:450-582`. -/
def applyTxn (txn : Option Txn) (st : St W) (loc : Loc P) : Except Err (St W × Loc P) := do
  let t := txn.getD {}
  let (tt, rt, bc) ← record env t st.txnTrie st.rctTrie st.txnIx loc.byteCode
  let ((w, code), loc) ← applyTraces I env t.receipt t.traces (st.world, st.code)
    { loc with gas := loc.gas + t.gasUsed, byteCode := bc }
  return ({ st with
    world := w
    code := code
    txnTrie := tt
    rctTrie := rt
    txnIx := if txn.isSome then st.txnIx + 1 else st.txnIx
    loopIx := st.loopIx + 1 }, loc)

/-- The loop over the transactions of a batch. -/
def applyTxns : List (Option Txn) → St W → Loc P → Except Err (St W × Loc P)
  | [], st, loc => .ok (st, loc)
  | t :: l, st, loc => do
    let (st, loc) ← applyTxn I env t st loc
    applyTxns l st loc

/-- `*it += *amt` (panics on overflow). `trace_decoder/src/core.rs:593`. -/
def addBalance (amt : U256) (x : U256) : Except Err U256 :=
  if x.toNat + amt.toNat < 2 ^ 256 then .ok (x + amt) else .error .overflow

/-- The loop over the withdrawals. `trace_decoder/src/core.rs:591-594`. -/
def applyWithdrawals : List (Addr × U256) → W → Except Err W
  | [], w => .ok w
  | (a, amt) :: l, w => do
    let w ← I.updateBalance w a (addBalance amt)
    applyWithdrawals l w

/-- `mask` of the transaction and receipt tries: the keys of a range of indices.
`evm_arithmetization/src/tries.rs:212-220, 257-265`. -/
def maskTxns (t : Node) (lo hi : Nat) : Except Err Node :=
  ofSubset (Mpt.createSubset env.keccak t ((List.range' lo (hi - lo)).map txnKey))

/-- Hook run before the first transaction: new world and the masks it requires. -/
abbrev Hook (W P : Type) := W → Except Err (W × Masks × List P)

/-- `if txn_ix == 0`: run the hook. `trace_decoder/src/core.rs:440-448`. -/
def runHook (pre : Hook W P) (ix : Nat) (w : W) : Except Err (W × Masks × List P) :=
  if ix = 0 then pre w else .ok (w, [], [])

/-- Body of the loop over batches. `trace_decoder/src/core.rs:422-611`. -/
def runBatch (pre : Hook W P) (loopLen : Nat) (b : List (Option Txn)) (st : St W) :
    Except Err (St W × Batch W) := do
  let (w0, sm, pm) ← runHook pre st.txnIx st.world
  let (st', loc) ← applyTxns I env b { st with world := w0 } { smasks := sm, pmask := pm }
  let last := decide (st'.loopIx = loopLen)
  let ws := if last then st'.withdrawals else []
  let w' ← applyWithdrawals I ws st'.world
  let pmask := loc.pmask ++ ws.map (fun a => I.pathOf a.1)
  let bw ← I.mask st.world pmask
  let br ← maskTxns env st.rctTrie st.txnIx st'.txnIx
  let bt ← maskTxns env st.txnTrie st.txnIx st'.txnIx
  let bw ← I.maskStorage bw loc.smasks
  return ({ st' with world := w', withdrawals := if last then [] else st'.withdrawals },
    { firstTxnIx := st.txnIx
      gasUsed := loc.gas
      contractCode := loc.contractCode
      byteCode := loc.byteCode
      world := bw
      txnTrie := bt
      rctTrie := br
      stateRoot := I.root w'
      txnRoot := Mpt.rootHash env.keccak st'.txnTrie
      rctRoot := Mpt.rootHash env.keccak st'.rctTrie
      withdrawals := ws })

/-- The loop over batches. -/
def runBatches (pre : Hook W P) (loopLen : Nat) :
    List (List (Option Txn)) → St W → Except Err (St W × List (Batch W))
  | [], st => .ok (st, [])
  | b :: bs, st => do
    let (st, o) ← runBatch I env pre loopLen b st
    let (st, os) ← runBatches pre loopLen bs st
    return (st, o :: os)

/-- `middle`. `trace_decoder/src/core.rs:395-623`. -/
def middle (pre : Hook W P) (world : W) (batches : List (List (Option Txn))) (code : Hash2Code)
    (withdrawals : List (Addr × U256)) : Except Err (List (Batch W)) := do
  let (_, out) ← runBatches I env pre batches.flatten.length batches
    { world, code, withdrawals }
  return out

/-! ## Pre-execution hooks -/

/-- The fields of `BlockMetadata` used by the hooks. -/
structure Block where
  number : U256
  timestamp : U256
  parentBeaconBlockRoot : H256

/-- `BEACON_ROOTS_CONTRACT_ADDRESS`.
`evm_arithmetization/src/cpu/kernel/constants/mod.rs:441-442`. -/
def beaconAddr : Addr :=
  [0x00, 0x0F, 0x3d, 0xf6, 0xD7, 0x32, 0x80, 0x7E, 0xf1, 0x31, 0x9f, 0xB7, 0xB8, 0xbB, 0x85, 0x22,
   0xd0, 0xBe, 0xac, 0x02]

/-- One iteration of the loop of `do_beacon_hook`. `trace_decoder/src/core.rs:763-782`. -/
def beaconStore (w : W) (m : Masks) (ix u : U256) : Except Err (W × Masks) := do
  let m := addMask m beaconAddr [keyOfSlot env.keccak ix.toNat]
  if u = 0 then do
    let (w, r) ← I.reportingDestroySlot w beaconAddr ix
    return (w, addMask m beaconAddr r.toList)
  else do
    let w ← I.storeInt w beaconAddr ix u
    return (w, addMask m beaconAddr [keyOfSlot env.keccak ix.toNat])

/-- `do_beacon_hook`. `trace_decoder/src/core.rs:743-785`. -/
def beaconHook (b : Block) : Hook W P := fun w => do
  let tsIdx := b.timestamp % 8191
  let rootIdx := tsIdx + 8191
  let (w, m) ← beaconStore I env w (addMask [] beaconAddr []) tsIdx b.timestamp
  let (w, m) ← beaconStore I env w m rootIdx (uint b.parentBeaconBlockRoot)
  return (w, m, [I.pathOf beaconAddr])

/-- `ADDRESS_SCALABLE_L2`. `evm_arithmetization/src/cpu/kernel/constants/mod.rs:493`. -/
def scalableAddr : Addr :=
  [0, 0, 0, 0, 0, 0, 0, 0, 0, 0, 0, 0, 0, 0, 0, 0, 0x5c, 0xa1, 0xab, 0x1e]

/-- `GLOBAL_EXIT_ROOT_ADDRESS`. `evm_arithmetization/src/cpu/kernel/constants/mod.rs:483-484`. -/
def gerAddr : Addr :=
  [0xa4, 0x0D, 0x5f, 0x56, 0x74, 0x5a, 0x11, 0x8D, 0x09, 0x06, 0xa3, 0x4E, 0x69, 0xae, 0xC8, 0xC0,
   0xDb, 0x1c, 0xB8, 0xfA]

/-- `LAST_BLOCK_STORAGE_POS`, `STATE_ROOT_STORAGE_POS`, `TIMESTAMP_STORAGE_POS`,
`GLOBAL_EXIT_ROOT_STORAGE_POS`. `evm_arithmetization/src/cpu/kernel/constants/mod.rs:504, 507, 508, 509`. -/
def lastBlockPos : U256 := 0
def stateRootPos : U256 := 1
def timestampPos : U256 := 2
def gerPos : U256 := 0

/-- The slot of the Solidity mapping at position `pos`: `keccak(key ‖ pos)`. -/
def mapSlot (key : Bytes) (pos : U256) : H256 := env.keccak (key ++ slotBytes pos.toNat)

/-- The stores of block number and timestamp. `trace_decoder/src/core.rs:687-696`. -/
def scalableStore (w : W) (m : Masks) (ix u : U256) : Except Err (W × Masks) :=
  if u = 0 then .error .zero
  else do
    let w ← I.storeInt w scalableAddr ix u
    return (w, addMask m scalableAddr [keyOfSlot env.keccak ix.toNat])

/-- `Result::unwrap_or_default` on integers. -/
def unwrapOrDefault : Except Err U256 → U256
  | .ok x => x
  | .error _ => 0

/-- `do_scalable_hook`. `trace_decoder/src/core.rs:659-736`. -/
def scalableHook (b : Block) (ger : Option (H256 × H256)) : Hook W P := fun w => do
  if b.number = 0 then .error .genesis
  else do
    let ts := unwrapOrDefault (I.loadInt w scalableAddr timestampPos)
    let ts := if ts.toNat ≤ b.timestamp.toNat then b.timestamp else ts
    let (w, m) ← scalableStore I env w (addMask [] scalableAddr []) lastBlockPos b.number
    let (w, m) ← scalableStore I env w m timestampPos ts
    let prev := I.root w
    let slot := mapSlot env (slotBytes (b.number - 1).toNat) stateRootPos
    let w ← I.storeHash w scalableAddr slot prev
    let m := addMask m scalableAddr [keyOfHash slot]
    match ger with
    | none => return (w, m, [I.pathOf scalableAddr])
    | some (root, l1) =>
      let slot := mapSlot env root.bytes gerPos
      let w ← I.storeHash w gerAddr slot l1
      return (w, addMask m gerAddr [keyOfHash slot], [I.pathOf scalableAddr, I.pathOf gerAddr])

/-- The network features. `trace_decoder/src/core.rs:637-649`. -/
inductive Chain where
  | ethMainnet
  | cdkErigon
  | polygonPos
deriving DecidableEq

/-- `do_pre_execution`. `trace_decoder/src/core.rs:626-652`. -/
def preExecution (c : Chain) (b : Block) (ger : Option (H256 × H256)) : Hook W P :=
  match c with
  | .ethMainnet => beaconHook I env b
  | .cdkErigon => scalableHook I env b ger
  | .polygonPos => fun w => .ok (w, [], [])

/-! ## entrypoint -/

/-- `gwei_to_wei` on the withdrawals (`U256` multiplication panics on overflow).
`trace_decoder/src/core.rs:77-79`, `common/src/lib.rs:43-47`. -/
def toWei (x : U256) : Except Err U256 :=
  if x.toNat * 10 ^ 9 < 2 ^ 256 then .ok (x * 10 ^ 9) else .error .overflow

/-- The withdrawals in wei. -/
def weiAll : List (Addr × U256) → Except Err (List (Addr × U256))
  | [] => .ok []
  | (a, x) :: l => do return (a, ← toWei x) :: (← weiAll l)

/-- `GenerationInputs`: the fields that differ between batches.
`trace_decoder/src/core.rs:140-173`. -/
structure GenInput (W : Type) where
  txnNumberBefore : Nat
  gasUsedBefore : Nat
  gasUsedAfter : Nat
  signedTxns : List Bytes
  withdrawals : List (Addr × U256)
  world : W
  txnTrie : Node
  rctTrie : Node
  stateRootAfter : H256
  txnRootAfter : H256
  rctRootAfter : H256
  contractCode : List (H256 × Bytes)

/-- The final map with its `running_gas_used`. `trace_decoder/src/core.rs:118-176`. -/
def toInputs : Nat → List (Batch W) → List (GenInput W)
  | _, [] => []
  | g, b :: bs =>
    { txnNumberBefore := b.firstTxnIx
      gasUsedBefore := g
      gasUsedAfter := g + b.gasUsed
      signedTxns := b.byteCode
      withdrawals := b.withdrawals
      world := b.world
      txnTrie := b.txnTrie
      rctTrie := b.rctTrie
      stateRootAfter := b.stateRoot
      txnRootAfter := b.txnRoot
      rctRootAfter := b.rctRoot
      contractCode := b.contractCode.map (fun c => (I.codeHash c, c)) } :: toInputs (g + b.gasUsed) bs

/-- `entrypoint`, from the world and code produced by `start`. `trace_decoder/src/core.rs:43-177, 186-268`. -/
def entrypoint (chain : Chain) (blk : Block) (ger : Option (H256 × H256)) (world : W)
    (code : Hash2Code) (codeDb : List Bytes) (txns : List Txn) (hint : Nat)
    (withdrawals : List (Addr × U256)) : Except Err (List (GenInput W)) :=
  if hint = 0 then .error .badInput
  else do
    let ws ← weiAll withdrawals
    let out ← middle I env (preExecution I env chain blk ger) world (batch txns hint)
      (code.extend I.codeHash codeDb) ws
    return toInputs I 0 out

end
end Verif.Decoder
