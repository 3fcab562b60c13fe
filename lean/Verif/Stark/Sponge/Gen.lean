import Verif.Stark.Sponge.Claims

/-! Generation of the Keccak sponge table and of the operations other tables get. Property C90.
Models `keccak_sponge/keccak_sponge_stark.rs:244-535`, `cpu/kernel/keccak_util.rs:7-31`, `witness/util.rs:277-348` and
`generation/state.rs:140-148`. The permutation itself is `tiny_keccak::keccakf`, a dependency, taken to be the specification. -/

namespace Verif.Stark.Sponge.Gen

open Finset Arith Keccak.Spec Spec

/-! ### The permutation on words and bytes -/

/-- `keccakf_u32s`. `keccak_util.rs:7-19`. -/
def keccakfU32 (W : ℕ → ℕ) : ℕ → ℕ :=
  let before := (List.range 25).map (fun i => W (i * 2) ||| (W (i * 2 + 1) <<< 32))
  let after := lanes (keccakF (ofLanes before))
  fun i => (after.getD (i / 2) 0 >>> (i % 2 * 32)) % 2 ^ 32

/-- `u64::from_le_bytes` of eight bytes. -/
def fromLe64 (s : ℕ → ℕ) (i : ℕ) : ℕ := ∑ j ∈ range 8, s (i * 8 + j) * 256 ^ j

/-- `keccakf_u8s`. `keccak_util.rs:22-30`. -/
def keccakfU8 (s : ℕ → ℕ) : ℕ → ℕ :=
  let before := (List.range 25).map (fromLe64 s)
  let after := lanes (keccakF (ofLanes before))
  fun i => after.getD (i / 8) 0 / 256 ^ (i % 8) % 256

/-! ### Rows -/

/-- `KeccakSpongeOp`. `keccak_sponge_stark.rs:233-242`. -/
structure Op where
  ctx : ℕ
  seg : ℕ
  virt : ℕ
  ts : ℕ
  input : List ℕ

/-- The state with the block added to it. `generate_common_fields`, `keccak_sponge_stark.rs:446-461`; `u32::from_le_bytes` is `le32`. -/
def xorWords (W blk : ℕ → ℕ) : ℕ → ℕ := fun k => if k < 34 then W k ^^^ le32 blk k else W k

/-- A row: the flags and the block (`generate_full_input_row`, `generate_final_row`, `keccak_sponge_stark.rs:360-376, 382-412`) and the common fields
(`generate_common_fields`, `keccak_sponge_stark.rs:419-494`). The padding bytes are those from `pad` on. The check at the end of
`generate_common_fields` cannot fail: the four bytes of a word make up the word. -/
def genRow (op : Op) (full : Bool) (pad : ℕ) (blk : ℕ → ℕ) (abs : ℕ) (W : ℕ → ℕ) : Row F :=
  let xored := xorWords W blk
  let after := keccakfU32 xored
  fun c =>
    if c = FULL then (if full then 1 else 0)
    else if c = CTX then (op.ctx : F)
    else if c = SEG then (op.seg : F)
    else if c = VIRT then (op.virt : F)
    else if c = TS then (op.ts : F)
    else if c = ABS then (abs : F)
    else if c < 142 then (if pad ≤ c - 6 then 1 else 0)
    else if c < 192 then (W (c - 142) : F)
    else if c < 328 then (blk (c - 192) : F)
    else if c < 362 then (xored (c - 328) : F)
    else if c < 404 then (after (8 + (c - 362)) : F)
    else if c < 436 then ((after ((c - 404) / 4) >>> (8 * ((c - 404) % 4)) &&& 0xFF : ℕ) : F)
    else 0

/-- The state for the next block, read back from the row. `generate_rows_for_op`, `keccak_sponge_stark.rs:325-344`. -/
def nextState (row : Row F) : ℕ → ℕ := fun k =>
  if k < 8 then ∑ i ∈ range 4, (row (DIG (4 * k + i))).val <<< (8 * i) else (row (PART (k - 8))).val

/-- A row without padding. `generate_full_input_row`, `keccak_sponge_stark.rs:360-376`. -/
def fullRow (op : Op) (k : ℕ) (W : ℕ → ℕ) : Row F := genRow op true 136 (fun i => op.input.getD (136 * k + i) 0) (136 * k) W

/-- The state before the `k`-th block. `generate_rows_for_op`, `keccak_sponge_stark.rs:306-348`. -/
def stateAt (op : Op) : ℕ → ℕ → ℕ
  | 0 => fun _ => 0
  | k + 1 => nextState (fullRow op k (stateAt op k))

/-- The last block, with the padding. `generate_final_row`, `keccak_sponge_stark.rs:393-406`, and `keccak_sponge_log`, `witness/util.rs:329-338`: the
assignments in the order of the program. -/
def finalBlock (rest : List ℕ) : ℕ → ℕ :=
  if rest.length = 135 then Function.update (fun i => rest.getD i 0) rest.length 0b10000001
  else Function.update (Function.update (fun i => rest.getD i 0) rest.length 1) 135 0b10000000

/-- The rows of an operation. `generate_rows_for_op`, `keccak_sponge_stark.rs:303-356`; `chunks_exact` gives `input.len() / 136` blocks and a remainder. -/
def rowsFor (op : Op) : List (Row F) :=
  let blocks := op.input.length / 136
  let rest := op.input.drop (136 * blocks)
  (List.range blocks).map (fun k => fullRow op k (stateAt op k)) ++
    [genRow op false rest.length (finalBlock rest) (136 * blocks) (stateAt op blocks)]

/-- The rows of all operations. -/
def rows (ops : List Op) : List (Row F) := (ops.map rowsFor).flatten

/-- The height of the table. `generate_trace_rows`, `keccak_sponge_stark.rs:281-293`. -/
def traceHeight (ops : List Op) (minRows : ℕ) : ℕ := Logic.nextPow (max (rows ops).length (max minRows 256))

/-- The rows before the range check columns are filled in; the padding rows are zero. `keccak_sponge_stark.rs:287-298, 496-500`. -/
def baseRow (ops : List Op) (i : ℕ) : Row F := ((rows ops)[i]?).getD (fun _ => 0)

/-- The table. `generate_trace`, `generate_range_checks`, `keccak_sponge_stark.rs:253-272, 503-533`: the loop that adds one to the frequency of each
value is written as the number of its occurrences. -/
def traceRow (ops : List Op) (minRows i : ℕ) : Row F := fun c =>
  if c = COUNTER then ((if i < 256 then i else 256 - 1 : ℕ) : F)
  else if c = FREQ then (if i < 256 then (occurrences (traceHeight ops minRows) (looking (baseRow ops)) i : F) else 0)
  else baseRow ops i c

/-! ### Logging -/

/-- What is pushed when a string is hashed: memory reads, logic operations, inputs of the permutation with their times, and the operation itself. -/
structure Log where
  mem : List BytePacking.MemOp
  logic : List (Logic.Op × ℕ × ℕ)
  keccak : List (List ℕ × ℕ)
  sponge : List Op

def Log.append (a b : Log) : Log := ⟨a.mem ++ b.mem, a.logic ++ b.logic, a.keccak ++ b.keccak, a.sponge ++ b.sponge⟩

/-- The `c`-th operand of `xor_into_sponge`: `U256::from_little_endian` of the bytes `32 c`, …, `min 136 (32 c + 32) - 1`. `witness/util.rs:282-285`. -/
def leOperand (s : ℕ → ℕ) (c : ℕ) : ℕ := ∑ j ∈ range (min 136 (32 * c + 32) - 32 * c), s (32 * c + j) * 256 ^ j

/-- `xor_into_sponge`: what is pushed. `witness/util.rs:278-292`. -/
def xorLog (s blk : ℕ → ℕ) : List (Logic.Op × ℕ × ℕ) := (List.range 5).map (fun c => (.xor, leOperand s c, leOperand blk c))

/-- `xor_into_sponge`: the new state. `witness/util.rs:289-291`. -/
def xorState (s blk : ℕ → ℕ) : ℕ → ℕ := fun i => if i < 136 then s i ^^^ blk i else s i

/-- One block: `xor_into_sponge` and `push_keccak_bytes`. `witness/util.rs:318-319, 339-340`; `generation/state.rs:140-148`. -/
def blockLog (ts : ℕ) (s blk : ℕ → ℕ) : List (Logic.Op × ℕ × ℕ) × List (List ℕ × ℕ) :=
  (xorLog s blk, [((List.range 25).map (fromLe64 (xorState s blk)), ts)])

/-- The state of the loop over the blocks before the `k`-th. `witness/util.rs:302-321`. -/
def logState (input : List ℕ) : ℕ → ℕ → ℕ
  | 0 => fun _ => 0
  | k + 1 => keccakfU8 (xorState (logState input k) (fun i => input.getD (136 * k + i) 0))

/-- `keccak_sponge_log`. `witness/util.rs:294-348`. The memory reads of all blocks and of the rest are those of the whole string one after the other:
the address is incremented from byte to byte throughout. -/
def spongeLog (clock ctx seg virt : ℕ) (input : List ℕ) : Log where
  mem := BytePacking.pushBytes true ctx seg (clock * 5 + 1 + 0) virt input
  logic := (List.range (input.length / 136)).flatMap (fun k => (blockLog (clock * 5 + 1) (logState input k) (fun i => input.getD (136 * k + i) 0)).1) ++
    (blockLog (clock * 5 + 1) (logState input (input.length / 136)) (finalBlock (input.drop (136 * (input.length / 136))))).1
  keccak := (List.range (input.length / 136)).flatMap (fun k => (blockLog (clock * 5 + 1) (logState input k) (fun i => input.getD (136 * k + i) 0)).2) ++
    (blockLog (clock * 5 + 1) (logState input (input.length / 136)) (finalBlock (input.drop (136 * (input.length / 136))))).2
  sponge := [⟨ctx, seg, virt, clock * 5 + 1, input⟩]

/-- A call of `keccak_sponge_log`. -/
structure Call where
  clock : ℕ
  ctx : ℕ
  seg : ℕ
  virt : ℕ
  input : List ℕ

/-- The log of several calls. -/
def logs : List Call → Log
  | [] => ⟨[], [], [], []⟩
  | c :: cs => (spongeLog c.clock c.ctx c.seg c.virt c.input).append (logs cs)

/-! ### The permutation -/

theorem lanes_keccakF {A B : State} (h : Same A B) : lanes (keccakF A) = lanes (keccakF B) := lanes_congr (rounds_congr 24 h)

theorem lanes_word (A : State) {k : ℕ} (hk : k < 50) : ((lanes A).getD (k / 2) 0 >>> (k % 2 * 32)) % 2 ^ 32 = le32 (toBytes A) k := by
  have hb : ∀ j < 4, (lanes A).getD (k / 2) 0 / 256 ^ (4 * (k % 2) + j) % 256 = toBytes A (4 * k + j) := by
    intro j hj
    rw [← lanes_toBytes A (k / 2) (by omega) (4 * (k % 2) + j) (by omega)]
    exact congrArg _ (by omega)
  have h0 := hb 0 (by decide)
  simp only [add_zero] at h0
  rw [Nat.shiftRight_eq_div_pow, Nat.mul_comm, word_digits]
  unfold le32
  beta_reduce
  rw [h0, hb 1 (by decide), hb 2 (by decide), hb 3 (by decide)]

theorem keccakfU32_eq {s W : ℕ → ℕ} (hs : ∀ i < 200, s i < 256) (hW : ∀ k < 50, W k = le32 s k) {k : ℕ} (hk : k < 50) :
    keccakfU32 W k = le32 (permute s) k := by
  have hsame : Same (ofLanes ((List.range 25).map (fun i => W (i * 2) ||| (W (i * 2 + 1) <<< 32)))) (ofBytes s) := by
    intro x hx y hy z hz
    unfold ofLanes ofBytes
    rw [getD_table _ (by omega), hW _ (by omega), hW _ (by omega), Nat.testBit_or, Nat.testBit_shiftLeft,
      le32_testBit (fun i _ _ => hs i (by omega)), le32_testBit (fun i _ _ => hs i (by omega))]
    by_cases h : z < 32
    · rw [decide_eq_true h, decide_eq_false (by omega : ¬ z ≥ 32), Bool.false_and, Bool.or_false, Bool.true_and]
      rw [show 4 * ((5 * y + x) * 2) + z / 8 = 8 * (5 * y + x) + z / 8 by omega]
    · rw [decide_eq_false h, decide_eq_true (by omega : z ≥ 32), decide_eq_true (by omega : z - 32 < 32), Bool.false_and, Bool.false_or, Bool.true_and, Bool.true_and]
      rw [show 4 * ((5 * y + x) * 2 + 1) + (z - 32) / 8 = 8 * (5 * y + x) + z / 8 by omega, show (z - 32) % 8 = z % 8 by omega]
  unfold keccakfU32
  rw [lanes_keccakF hsame]
  exact lanes_word _ hk

theorem fromLe64_testBit {s : ℕ → ℕ} {i z : ℕ} (hs : ∀ j < 8, s (i * 8 + j) < 256) (hz : z < 64) :
    (fromLe64 s i).testBit z = (s (8 * i + z / 8)).testBit (z % 8) := by
  have := digit_sum (B := 256) (by decide) (z / 8) 8 (fun j => s (i * 8 + j)) (fun j hj => hs j hj) (by omega)
  rw [Nat.mul_comm 8 i, ← this, show (256 : ℕ) ^ (z / 8) = 2 ^ (8 * (z / 8)) by rw [Nat.pow_mul], show (256 : ℕ) = 2 ^ 8 from rfl, Nat.testBit_mod_two_pow,
    Nat.testBit_div_two_pow, decide_eq_true (by omega), Bool.true_and, show z % 8 + 8 * (z / 8) = z by omega]
  rfl

theorem same_fromLe64 {s : ℕ → ℕ} (hs : ∀ i < 200, s i < 256) : Same (ofLanes ((List.range 25).map (fromLe64 s))) (ofBytes s) := by
  intro x hx y hy z hz
  unfold ofLanes ofBytes
  rw [getD_table _ (by omega), fromLe64_testBit (fun j hj => hs _ (by omega)) hz]

theorem keccakfU8_eq {s : ℕ → ℕ} (hs : ∀ i < 200, s i < 256) {i : ℕ} (hi : i < 200) : keccakfU8 s i = permute s i := by
  unfold keccakfU8
  rw [lanes_keccakF (same_fromLe64 hs), ← lanes_toBytes _ (i / 8) (by omega) (i % 8) (by omega), show 8 * (i / 8) + i % 8 = i by omega]
  rfl

/-! ### The rows are those of the strings -/

/-- The string of an operation. -/
def Op.str (op : Op) : Str := ⟨op.ctx, op.seg, op.virt, op.ts, op.input⟩

/-- The honest rows. -/
def Op.cells (op : Op) : List Cell := op.str.honest (fun j => (op.str.state (op.str.full + 1) j : F))

/-- The row of the `k`-th block. -/
def Op.cell (op : Op) (k : ℕ) : Cell := op.str.cell op.str.state (fun k => op.str.state (k + 1)) (fun k j => (op.str.state (k + 1) j : F)) k

theorem cells_eq (op : Op) : op.cells = (List.range (op.input.length / 136 + 1)).map op.cell := by
  have hd : (fun k => if k = op.str.full then fun j => (op.str.state (op.str.full + 1) j : F) else fun j => (op.str.state (k + 1) j : F)) =
      fun k j => (op.str.state (k + 1) j : F) := by
    funext k
    split
    · rename_i h; rw [h]
    · rfl
  unfold Op.cells Str.honest Str.cells
  rw [hd]
  rfl

/-- The block of the code is that of the padded string. -/
theorem finalBlock_eq (m : List ℕ) {i : ℕ} (hi : i < 136) : finalBlock (m.drop (136 * (m.length / 136))) i = blockOf (pad m) (m.length / 136) i := by
  have hrl : (m.drop (136 * (m.length / 136))).length = m.length % 136 := by rw [List.length_drop]; omega
  have hg : ∀ i, (m.drop (136 * (m.length / 136))).getD i 0 = m.getD (136 * (m.length / 136) + i) 0 := by
    intro i; rw [List.getD_eq_getElem?_getD, List.getD_eq_getElem?_getD, List.getElem?_drop]
  unfold blockOf finalBlock
  rw [hrl]
  by_cases hlt : i < m.length % 136
  · rw [pad_getD_lt (by omega)]
    split
    · rw [Function.update_of_ne (by omega), hg]
    · rw [Function.update_of_ne (by omega), Function.update_of_ne (by omega), hg]
  · rw [pad_getD_ge (by omega) hi]
    have hz : m.getD (136 * (m.length / 136) + i) 0 = 0 := List.getD_eq_default _ _ (by omega)
    unfold padByte
    by_cases h1 : m.length % 136 = 135
    · rw [if_pos h1, if_pos h1, show i = m.length % 136 by omega, Function.update_self]
    · rw [if_neg h1, if_neg h1]
      by_cases h2 : i = 135
      · rw [h2, Function.update_self, if_neg (by omega), if_pos rfl]
      · rw [Function.update_of_ne h2]
        by_cases h3 : i = m.length % 136
        · rw [if_pos h3, h3, Function.update_self]
        · rw [if_neg h3, if_neg h2, Function.update_of_ne h3, hg, hz]

theorem fullBlock_eq (m : List ℕ) {k i : ℕ} (hk : k < m.length / 136) (hi : i < 136) : m.getD (136 * k + i) 0 = blockOf (pad m) k i := by
  unfold blockOf; rw [pad_getD_lt (by omega)]

theorem byte_of_word {s : ℕ → ℕ} {k i : ℕ} (hs : ∀ i < 200, s i < 256) (hk : k < 50) (hi : i < 4) : le32 s k >>> (8 * i) &&& 0xFF = s (4 * k + i) := by
  have h0 := hs (4 * k) (by omega)
  have h1 := hs (4 * k + 1) (by omega)
  have h2 := hs (4 * k + 2) (by omega)
  have h3 := hs (4 * k + 3) (by omega)
  rw [show 0xFF = 2 ^ 8 - 1 from rfl, Nat.and_two_pow_sub_one_eq_mod, Nat.shiftRight_eq_div_pow]
  unfold le32
  obtain rfl | rfl | rfl | rfl : i = 0 ∨ i = 1 ∨ i = 2 ∨ i = 3 := by omega
  all_goals norm_num
  all_goals omega

/-- A generated row is the row of a block if the words are those of the state. -/
theorem genRow_eq {op : Op} {full : Bool} {padFrom : ℕ} {blk blk' : ℕ → ℕ} {abs : ℕ} {W st : ℕ → ℕ} (hst : ∀ i < 200, st i < 256)
    (hW : ∀ k < 50, W k = le32 st k) (hb : ∀ i < 136, blk i = blk' i) (hb' : ∀ i < 136, blk' i < 256) :
    genRow op full padFrom blk abs W = (Cell.mk full op.ctx op.seg op.virt op.ts abs padFrom st blk' (permute (xorBlock st blk'))
      (fun j => (permute (xorBlock st blk') j : F))).row := by
  have hx : ∀ k < 50, xorWords W blk k = le32 (xorBlock st blk') k := by
    intro k hk
    unfold xorWords
    split
    · rename_i h
      rw [hW k hk, le32_congr (t := blk') (fun i _ _ => hb i (by omega)), ← le32_xor (fun i _ _ => hst i (by omega)) (fun i _ _ => hb' i (by omega))]
      exact le32_congr (fun i _ _ => by rw [xorBlock, if_pos (by omega)])
    · rw [hW k hk]
      exact le32_congr (fun i _ _ => by rw [xorBlock, if_neg (by omega)])
  have hp : ∀ k < 50, keccakfU32 (xorWords W blk) k = le32 (permute (xorBlock st blk')) k := fun k hk => keccakfU32_eq (xorBlock_lt hst hb') hx hk
  have hpl : ∀ i < 200, permute (xorBlock st blk') i < 256 := fun i _ => toBytes_lt _ _
  funext c
  unfold genRow Cell.row
  dsimp only
  by_cases h1 : c < 142
  · rw [if_pos h1, if_pos h1]
  rw [if_neg (show c ≠ 0 by omega), if_neg (show c ≠ 1 by omega), if_neg (show c ≠ 2 by omega), if_neg (show c ≠ 3 by omega), if_neg (show c ≠ 4 by omega),
    if_neg (show c ≠ 5 by omega), if_neg h1, if_neg (show c ≠ 0 by omega), if_neg (show c ≠ 1 by omega), if_neg (show c ≠ 2 by omega),
    if_neg (show c ≠ 3 by omega), if_neg (show c ≠ 4 by omega), if_neg (show c ≠ 5 by omega), if_neg h1]
  by_cases h2 : c < 192
  · rw [if_pos h2, if_pos h2, hW _ (by omega)]
  rw [if_neg h2, if_neg h2]
  by_cases h3 : c < 328
  · rw [if_pos h3, if_pos h3, hb _ (by omega)]
  rw [if_neg h3, if_neg h3]
  by_cases h4 : c < 362
  · rw [if_pos h4, if_pos h4, hx _ (by omega)]
  rw [if_neg h4, if_neg h4]
  by_cases h5 : c < 404
  · rw [if_pos h5, if_pos h5, hp _ (by omega), Nat.add_comm]
  rw [if_neg h5, if_neg h5]
  by_cases h6 : c < 436
  · rw [if_pos h6, if_pos h6, hp _ (by omega), byte_of_word hpl (by omega) (by omega), show 4 * ((c - 404) / 4) + (c - 404) % 4 = c - 404 by omega]
  · rw [if_neg h6, if_neg h6]

theorem nextState_eq {e : Cell} (hout : ∀ i < 200, e.out i < 256) (hdig : ∀ j, e.dig j = (e.out j : F)) {k : ℕ} (hk : k < 50) :
    nextState e.row k = le32 e.out k := by
  have hv : ∀ {a : ℕ}, a < 2 ^ 32 → ((a : F)).val = a := fun h => ZMod.val_natCast_of_lt (lt_trans h (by decide))
  unfold nextState
  split
  · have hd : ∀ i < 4, (e.row (DIG (4 * k + i))).val = e.out (4 * k + i) := by
      intro i hi
      rw [row_dig e (by omega), hdig, hv (by have := hout (4 * k + i) (by omega); omega)]
    have hd0 := hd 0 (by decide)
    simp only [add_zero] at hd0
    simp only [sum_range_succ, sum_range_zero, zero_add, add_zero]
    rw [hd0, hd 1 (by decide), hd 2 (by decide), hd 3 (by decide)]
    simp only [Nat.shiftLeft_eq]
    unfold le32
    norm_num
  · rw [row_part e (by omega), hv (le32_lt (fun i _ _ => hout i (by omega))), show 8 + (k - 8) = k by omega]

theorem str_full (op : Op) : op.str.full = op.input.length / 136 := rfl

theorem str_state_succ (op : Op) (k : ℕ) : op.str.state (k + 1) = permute (xorBlock (op.str.state k) (blockOf (pad op.input) k)) := rfl

theorem fullRow_eq {op : Op} (hb : ∀ b ∈ op.input, b < 256) {k : ℕ} (hk : k < op.input.length / 136) {W : ℕ → ℕ} (hW : ∀ j < 50, W j = le32 (op.str.state k) j) :
    fullRow op k W = (op.cell k).row := by
  unfold fullRow
  rw [genRow_eq (st := op.str.state k) (blk' := blockOf (pad op.input) k) (fun i _ => sponge_lt _ _ _) hW (fun i hi => fullBlock_eq op.input hk hi)
    (fun i _ => blockOf_lt (pad_lt hb) k i)]
  unfold Op.cell Str.cell
  rw [str_full, decide_eq_true hk, if_pos hk]
  rfl

theorem stateAt_eq {op : Op} (hb : ∀ b ∈ op.input, b < 256) : ∀ k ≤ op.input.length / 136, ∀ j < 50, stateAt op k j = le32 (op.str.state k) j
  | 0, _, j, _ => (le32_zero j).symm
  | k + 1, hk, j, hj => by
    rw [stateAt, fullRow_eq hb (by omega) (stateAt_eq hb k (by omega))]
    exact nextState_eq (e := op.cell k) (fun i _ => sponge_lt _ _ _)
      (fun _ => rfl) hj

theorem rowsFor_eq {op : Op} (hb : ∀ b ∈ op.input, b < 256) : rowsFor op = op.cells.map Cell.row := by
  rw [cells_eq, List.range_succ, List.map_append, List.map_append]
  unfold rowsFor
  dsimp only
  refine congrArg₂ (· ++ ·) ?_ ?_
  · rw [List.map_map]
    refine List.map_congr_left (fun k hk => ?_)
    have hk := List.mem_range.1 hk
    exact fullRow_eq hb hk (stateAt_eq hb k (by omega))
  · rw [List.map_singleton, List.map_singleton, genRow_eq (st := op.str.state (op.input.length / 136)) (blk' := blockOf (pad op.input) (op.input.length / 136))
      (fun i _ => sponge_lt _ _ _) (stateAt_eq hb _ le_rfl) (fun i hi => finalBlock_eq op.input hi) (fun i _ => blockOf_lt (pad_lt hb) _ i)]
    unfold Op.cell Str.cell
    rw [str_full, decide_eq_false (lt_irrefl _), if_neg (lt_irrefl _), List.length_drop, show op.input.length - 136 * (op.input.length / 136) = op.input.length % 136 by omega]
    rfl

/-- The rows of all strings. -/
def allCells (ops : List Op) : List Cell := (ops.map Op.cells).flatten

theorem rows_eq {ops : List Op} (hb : ∀ op ∈ ops, ∀ b ∈ op.input, b < 256) : rows ops = (allCells ops).map Cell.row := by
  unfold rows allCells
  rw [List.map_flatten, List.map_map]
  exact congrArg List.flatten (List.map_congr_left (fun op hop => rowsFor_eq (hb op hop)))

theorem traceRow_eq {ops : List Op} (hb : ∀ op ∈ ops, ∀ b ∈ op.input, b < 256) (m : ℕ) : traceRow ops m = cellTrace (traceHeight ops m) (allCells ops) := by
  have hbase : baseRow ops = cellRow (allCells ops) := by
    funext i
    unfold baseRow cellRow
    rw [rows_eq hb, List.getElem?_map]
    cases (allCells ops)[i]? <;> rfl
  funext i c
  unfold traceRow cellTrace
  rw [hbase]

theorem allCells_length {ops : List Op} (hb : ∀ op ∈ ops, ∀ b ∈ op.input, b < 256) (m : ℕ) : (allCells ops).length ≤ traceHeight ops m ∧ 256 ≤ traceHeight ops m := by
  have h : (rows ops).length = (allCells ops).length := by rw [rows_eq hb, List.length_map]
  have h2 : max (rows ops).length (max m 256) ≤ traceHeight ops m := Nat.le_pow_clog Nat.one_lt_two _
  omega

theorem allCells_chained {ops : List Op} (hb : ∀ op ∈ ops, ∀ b ∈ op.input, b < 256) : Chained (allCells ops) := by
  refine Chained.flatten (fun a ha => ?_)
  obtain ⟨op, hop, rfl⟩ := List.mem_map.1 ha
  exact Str.honest_chained (hb op hop) (digestOk_bytes _)

theorem allCells_permuted (ops : List Op) : ∀ e ∈ allCells ops, e.Permuted := by
  intro e he
  obtain ⟨a, ha, he⟩ := List.mem_flatten.1 he
  obtain ⟨op, -, rfl⟩ := List.mem_map.1 ha
  exact Str.honest_permuted e he

/-! ### What is logged -/

theorem logs_sponge (cs : List Call) : (logs cs).sponge = cs.map (fun c => ⟨c.ctx, c.seg, c.virt, c.clock * 5 + 1, c.input⟩) := by
  induction cs with
  | nil => rfl
  | cons c cs ih => rw [logs, List.map_cons, ← ih]; rfl

theorem logs_mem (cs : List Call) : (logs cs).mem = cs.flatMap (fun c => (spongeLog c.clock c.ctx c.seg c.virt c.input).mem) := by
  induction cs with
  | nil => rfl
  | cons c cs ih => rw [List.flatMap_cons, ← ih]; rfl

theorem logs_logic (cs : List Call) : (logs cs).logic = cs.flatMap (fun c => (spongeLog c.clock c.ctx c.seg c.virt c.input).logic) := by
  induction cs with
  | nil => rfl
  | cons c cs ih => rw [List.flatMap_cons, ← ih]; rfl

theorem logs_keccak (cs : List Call) : (logs cs).keccak = cs.flatMap (fun c => (spongeLog c.clock c.ctx c.seg c.virt c.input).keccak) := by
  induction cs with
  | nil => rfl
  | cons c cs ih => rw [List.flatMap_cons, ← ih]; rfl

def Call.op (c : Call) : Op := ⟨c.ctx, c.seg, c.virt, c.clock * 5 + 1, c.input⟩

theorem operand_eq {f g : ℕ → ℕ} (h : ∀ i < 136, f i = g i) {c : ℕ} (hc : c < 5) : leOperand f c = operand g c := by
  unfold leOperand operand
  have hle : min 136 (32 * c + 32) - 32 * c ≤ 32 := by omega
  obtain ⟨d, hd⟩ : ∃ d, 32 = min 136 (32 * c + 32) - 32 * c + d := ⟨_, (Nat.add_sub_cancel' hle).symm⟩
  have : ∑ j ∈ range 32, (if 32 * c + j < 136 then g (32 * c + j) else 0) * 256 ^ j =
      ∑ j ∈ range (min 136 (32 * c + 32) - 32 * c), (if 32 * c + j < 136 then g (32 * c + j) else 0) * 256 ^ j := by
    rw [show range 32 = range (min 136 (32 * c + 32) - 32 * c + d) from congrArg range hd, sum_range_add]
    refine Nat.add_eq_left.2 (sum_eq_zero (fun j hj => ?_))
    have := mem_range.1 hj
    rw [if_neg (by omega), Nat.zero_mul]
  rw [this]
  refine sum_congr rfl (fun j hj => ?_)
  have := mem_range.1 hj
  rw [if_pos (by omega), h _ (by omega)]

theorem xorLog_eq {s blk s' blk' : ℕ → ℕ} (hs : ∀ i < 200, s i = s' i) (hb : ∀ i < 136, blk i = blk' i) : xorLog s blk = logicOps s' blk' := by
  refine List.map_congr_left (fun c hc => ?_)
  have hc := List.mem_range.1 hc
  rw [operand_eq (fun i hi => hs i (by omega)) hc, operand_eq hb hc]

theorem xorState_eq {s blk s' blk' : ℕ → ℕ} (hs : ∀ i < 200, s i = s' i) (hb : ∀ i < 136, blk i = blk' i) : ∀ i < 200, xorState s blk i = xorBlock s' blk' i := by
  intro i hi
  unfold xorState xorBlock
  rw [hs i hi]
  split
  · rw [hb i (by assumption)]
  · rfl

/-- The state of the loop. -/
theorem logState_eq {m : List ℕ} (hm : ∀ b ∈ m, b < 256) : ∀ k ≤ m.length / 136, ∀ i < 200, logState m k i = sponge (blockOf (pad m)) k i
  | 0, _, _, _ => rfl
  | k + 1, hk, i, hi => by
    have e := xorState_eq (logState_eq hm k (by omega)) (blk := fun i => m.getD (136 * k + i) 0) (fun i hi => fullBlock_eq m (by omega) hi)
    rw [logState, keccakfU8_eq (fun j hj => by rw [e j hj]; exact xorBlock_lt (fun i _ => sponge_lt _ _ _) (fun i _ => blockOf_lt (pad_lt hm) _ _) j hj) hi]
    exact permute_congr e hi

theorem same_bytes {s t : ℕ → ℕ} (h : ∀ i < 200, s i = t i) : Same (ofBytes s) (ofBytes t) :=
  fun x _ y _ z _ => by unfold ofBytes; rw [h _ (by omega)]

/-- A row's permutation and XORs are those that are logged. -/
theorem blockLog_eq {ts : ℕ} {s blk s' blk' : ℕ → ℕ} (hs : ∀ i < 200, s i = s' i) (hb : ∀ i < 136, blk i = blk' i) (h1 : ∀ i < 200, s' i < 256) (h2 : ∀ i < 136, blk' i < 256) :
    (blockLog ts s blk).1 = logicOps s' blk' ∧
    ∀ {α : Type} (f : State → α), (∀ A B, Same A B → f A = f B) →
      (blockLog ts s blk).2.map (fun p => (f (ofLanes p.1), (p.2 : F))) = [(f (ofBytes (xorBlock s' blk')), (ts : F))] := by
  refine ⟨xorLog_eq hs hb, fun f hf => ?_⟩
  have e := xorState_eq hs hb
  have hlt : ∀ i < 200, xorState s blk i < 256 := fun i hi => by rw [e i hi]; exact xorBlock_lt h1 h2 i hi
  simp only [blockLog, List.map_cons, List.map_nil]
  rw [hf _ _ (same_fromLe64 hlt), hf _ _ (same_bytes e)]

theorem call_cells (c : Call) : c.op.cells = (List.range (c.input.length / 136)).map c.op.cell ++ [c.op.cell (c.input.length / 136)] := by
  rw [cells_eq, ← List.map_singleton (f := c.op.cell), ← List.map_append, ← List.range_succ]
  rfl

theorem spongeLog_logic {c : Call} (hb : ∀ b ∈ c.input, b < 256) :
    (spongeLog c.clock c.ctx c.seg c.virt c.input).logic = c.op.cells.flatMap (fun e => logicOps e.st e.blk) := by
  have hS : ∀ k, ∀ i < 200, sponge (blockOf (pad c.input)) k i < 256 := fun k i _ => sponge_lt _ k i
  have hB : ∀ k, ∀ i < 136, blockOf (pad c.input) k i < 256 := fun k i _ => blockOf_lt (pad_lt hb) k i
  rw [call_cells, List.flatMap_append, List.flatMap_map, List.flatMap_singleton]
  refine congrArg₂ (· ++ ·) ?_ ?_
  · refine List.flatMap_congr (fun k hk => ?_)
    have hk := List.mem_range.1 hk
    exact (blockLog_eq (logState_eq hb k (by omega)) (fun i hi => fullBlock_eq c.input hk hi) (hS k) (hB k)).1
  · exact (blockLog_eq (logState_eq hb _ le_rfl) (fun i hi => finalBlock_eq c.input hi) (hS _) (hB _)).1

theorem spongeLog_keccak {c : Call} (hb : ∀ b ∈ c.input, b < 256) {α : Type} (f : State → α) (hf : ∀ A B, Same A B → f A = f B) :
    (spongeLog c.clock c.ctx c.seg c.virt c.input).keccak.map (fun p => (f (ofLanes p.1), (p.2 : F))) =
      c.op.cells.map (fun e => (f (ofBytes (xorBlock e.st e.blk)), e.ts)) := by
  have hS : ∀ k, ∀ i < 200, sponge (blockOf (pad c.input)) k i < 256 := fun k i _ => sponge_lt _ k i
  have hB : ∀ k, ∀ i < 136, blockOf (pad c.input) k i < 256 := fun k i _ => blockOf_lt (pad_lt hb) k i
  rw [call_cells, List.map_append, List.map_map, List.map_singleton]
  unfold spongeLog
  rw [List.map_append, List.map_flatMap]
  refine congrArg₂ (· ++ ·) ?_ ?_
  · rw [← List.flatMap_singleton' ((List.range (c.input.length / 136)).map _), List.flatMap_map]
    refine List.flatMap_congr (fun k hk => ?_)
    have hk := List.mem_range.1 hk
    exact (blockLog_eq (logState_eq hb k (by omega)) (fun i hi => fullBlock_eq c.input hk hi) (hS k) (hB k)).2 f hf
  · exact (blockLog_eq (logState_eq hb _ le_rfl) (fun i hi => finalBlock_eq c.input hi) (hS _) (hB _)).2 f hf

/-! ### C90 -/

/-- The bytes of a call are bytes and its addresses do not overflow. `input` is a `Vec<u8>`, and the virtual address a `usize`. -/
def Call.Ok (c : Call) : Prop := (∀ b ∈ c.input, b < 256) ∧ c.virt + c.input.length ≤ 2 ^ 64

theorem ops_bytes {cs : List Call} (h : ∀ c ∈ cs, c.Ok) : ∀ op ∈ (logs cs).sponge, ∀ b ∈ op.input, b < 256 := by
  intro op hop
  rw [logs_sponge] at hop
  obtain ⟨c, hc, rfl⟩ := List.mem_map.1 hop
  exact (h c hc).1

theorem allCells_logs (cs : List Call) : allCells (logs cs).sponge = cs.flatMap (fun c => c.op.cells) := by
  rw [allCells, logs_sponge, List.map_map, ← List.flatMap_def]
  rfl

theorem logs_keccak_eq {cs : List Call} (h : ∀ c ∈ cs, c.Ok) {α : Type} (f : State → α) (hf : ∀ A B, Same A B → f A = f B) :
    (logs cs).keccak.map (fun p => (f (ofLanes p.1), (p.2 : F))) = (allCells (logs cs).sponge).map (fun e => (f (ofBytes (xorBlock e.st e.blk)), e.ts)) := by
  rw [allCells_logs, logs_keccak, List.map_flatMap, List.map_flatMap]
  exact List.flatMap_congr (fun c hc => spongeLog_keccak (h c hc).1 f hf)

theorem logs_logic_eq {cs : List Call} (h : ∀ c ∈ cs, c.Ok) : (logs cs).logic = (allCells (logs cs).sponge).flatMap (fun e => logicOps e.st e.blk) := by
  rw [allCells_logs, logs_logic, List.flatMap_assoc]
  exact List.flatMap_congr (fun c hc => spongeLog_logic (h c hc).1)

/-- The permutations logged for the Keccak table: the states and their times. -/
def perms (cs : List Call) : List (State × F) := (logs cs).keccak.map (fun p => (ofLanes p.1, (p.2 : F)))

/-- Property C90: for any strings hashed, the generated table satisfies its constraints, the lookup of its bytes, and the lookups into the logic table
generated from operations that contain those logged, in any order and among any others, and into a Keccak table with the logged states. -/
theorem C90_accepted {cs : List Call} (h : ∀ c ∈ cs, c.Ok) (minRows : ℕ) {ops : List (Logic.Op × ℕ × ℕ)} (hops : ∀ o ∈ (logs cs).logic, o ∈ ops) (m : ℕ) :
    Accepted (traceHeight (logs cs).sponge minRows) (traceRow (logs cs).sponge minRows) (Logic.traceHeight ops m) (Logic.traceRow ops) (perms cs) := by
  have hb := ops_bytes h
  have hl := allCells_length hb minRows
  rw [traceRow_eq hb]
  refine ((allCells_chained hb).chain hl.1).accepted hl.2 m (fun e he o ho => hops o ?_) ?_ ?_
  · rw [logs_logic_eq h]
    exact List.mem_flatMap.2 ⟨e, he, ho⟩
  · rw [perms, List.map_map]
    exact .of_eq (logs_keccak_eq h stateWords (fun _ _ hs => stateWords_congr hs)).symm
  · rw [perms, List.map_map]
    refine .of_eq (((logs_keccak_eq h (fun A => stateWords (keccakF A)) (fun _ _ hs => stateWords_congr (rounds_congr 24 hs))).trans ?_).symm)
    exact List.map_congr_left (fun e he => congrArg (·, e.ts) ((stateWords_bytes (allCells_permuted _ e he)).trans (stateWords_permute _)).symm)

/-- Property C90, results: the generated table shows the CPU, for each string, its Keccak-256 hash, with address, length and time of the call. -/
theorem C90_results {cs : List Call} (h : ∀ c ∈ cs, c.Ok) (minRows : ℕ) : ∀ c ∈ cs,
    Exports (traceHeight (logs cs).sponge minRows) (traceRow (logs cs).sponge minRows)
      ⟨c.ctx, c.seg, c.virt, (c.input.length : F), ((c.clock * 5 + 1 : ℕ) : F), word (BytePacking.beNat (keccak256 c.input))⟩ := by
  intro c hc
  have hb := ops_bytes h
  rw [traceRow_eq hb]
  have hmem : c.op.cell (c.input.length / 136) ∈ c.op.cells := by rw [call_cells]; exact List.mem_append_right _ (List.mem_singleton.2 rfl)
  have hall : c.op.cell (c.input.length / 136) ∈ allCells (logs cs).sponge := by rw [allCells_logs]; exact List.mem_flatMap.2 ⟨c, hc, hmem⟩
  have hok : ∀ e ∈ c.op.str.cells c.op.str.state (fun k => c.op.str.state (k + 1)) (fun k j => (c.op.str.state (k + 1) j : F)), e.Ok := by
    intro e he
    refine (allCells_chained hb).ok e ?_
    rw [allCells_logs]
    refine List.mem_flatMap.2 ⟨c, hc, ?_⟩
    rw [cells_eq]
    exact he
  obtain ⟨i, hi⟩ := List.getElem?_of_mem hall
  have hil := (List.getElem?_eq_some_iff.1 hi).1
  refine shows_of_cell hi (lt_of_lt_of_le hil (allCells_length hb minRows).1) ?_
  refine Str.shows hok (o := c.op.str) (fun k hk => ?_)
  rw [Cell.be4_bytes (d := c.op.str.state (c.input.length / 136 + 1)) (fun j _ => rfl) (fun j _ => sponge_lt _ _ _) hk, keccak256_eq]
  rfl

/-- Property C90, memory: the table accesses memory as logged and not otherwise. -/
theorem C90_memory {cs : List Call} (h : ∀ c ∈ cs, c.Ok) (minRows : ℕ) (a : BytePacking.Access) :
    Accesses (traceHeight (logs cs).sponge minRows) (traceRow (logs cs).sponge minRows) a ↔ ∃ o ∈ (logs cs).mem, a = o.access := by
  have hb := ops_bytes h
  rw [traceRow_eq hb, accesses_iff (allCells_length hb minRows).1, allCells_logs, logs_mem]
  have hok : ∀ c ∈ cs, ∀ e ∈ c.op.str.cells c.op.str.state (fun k => c.op.str.state (k + 1)) (fun k j => (c.op.str.state (k + 1) j : F)), e.Ok := by
    intro c hc e he
    refine (allCells_chained hb).ok e ?_
    rw [allCells_logs]
    refine List.mem_flatMap.2 ⟨c, hc, ?_⟩
    rw [cells_eq]
    exact he
  have key : ∀ c ∈ cs, ((∃ e ∈ c.op.cells, ∃ j < 136, memFilter e.row j = 1 ∧ memAccess e.row j = a) ↔
      ∃ o ∈ (spongeLog c.clock c.ctx c.seg c.virt c.input).mem, a = o.access) := by
    intro c hc
    have := Str.accesses (o := c.op.str) (hok c hc) (a := a)
    rw [cells_eq]
    refine this.trans ?_
    unfold spongeLog
    rw [BytePacking.pushBytes_eq _ _ _ _ _ _ (h c hc).2]
    constructor
    · rintro ⟨i, hi, rfl⟩
      refine ⟨_, List.mem_map.2 ⟨i, List.mem_range.2 hi, rfl⟩, ?_⟩
      have hi : i < c.input.length := hi
      unfold BytePacking.MemOp.access
      rw [List.getD_eq_getElem _ _ hi, Nat.cast_add]
      rfl
    · rintro ⟨o, ho, rfl⟩
      obtain ⟨i, hi, rfl⟩ := List.mem_map.1 ho
      have hi := List.mem_range.1 hi
      refine ⟨i, hi, ?_⟩
      unfold BytePacking.MemOp.access
      rw [List.getD_eq_getElem _ _ hi, Nat.cast_add]
      rfl
  constructor
  · rintro ⟨e, he, hx⟩
    obtain ⟨c, hc, he⟩ := List.mem_flatMap.1 he
    obtain ⟨o, ho, hx⟩ := (key c hc).1 ⟨e, he, hx⟩
    exact ⟨o, List.mem_flatMap.2 ⟨c, hc, ho⟩, hx⟩
  · rintro ⟨o, ho, hx⟩
    obtain ⟨c, hc, ho⟩ := List.mem_flatMap.1 ho
    obtain ⟨e, he, hx⟩ := (key c hc).2 ⟨o, ho, hx⟩
    exact ⟨e, List.mem_flatMap.2 ⟨c, hc, he⟩, hx⟩

deriving instance DecidableEq for BytePacking.MemOp

/-- Two calls: three blocks, and the empty string. The hypotheses hold, and the memory is read as it should be. -/
example : Accesses (traceHeight (logs [⟨7, 0, 3, 100, text012⟩, ⟨9, 1, 0, 5, []⟩]).sponge 0)
    (traceRow (logs [⟨7, 0, 3, 100, text012⟩, ⟨9, 1, 0, 5, []⟩]).sponge 0) ⟨1, 0, 3, ((100 + 407 : ℕ) : F), (2 : ℕ), (36 : ℕ)⟩ := by
  refine (C90_memory ?_ 0 _).2 ⟨⟨true, 0, 3, 507, 2, 36⟩, by decide +kernel, rfl⟩
  intro c hc
  rcases List.mem_pair.1 hc with rfl | rfl
  · exact ⟨by decide +kernel, by decide +kernel⟩
  · exact ⟨nofun, by decide⟩

end Verif.Stark.Sponge.Gen
