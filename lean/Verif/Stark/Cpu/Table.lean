import Verif.Stark.Arith.Table

/-! The CPU table: its columns and constraints. `evm_arithmetization/src/cpu`, without the feature `cdk_erigon`. -/

namespace Verif.Stark.Cpu

variable {R : Type} [CommRing R]

/-! ### Columns -/

/-- The columns before the operation flags. `CpuColumnsView`, `columns/mod.rs:57-79`. -/
abbrev CONTEXT : ℕ := 0
abbrev CODE_CONTEXT : ℕ := 1
abbrev PC : ℕ := 2
abbrev STACK_LEN : ℕ := 3
abbrev KERNEL_MODE : ℕ := 4
abbrev GAS : ℕ := 5

/-- The operation flags. `OpsColumnsView`, `columns/ops.rs:6-47`. -/
abbrev BINARY : ℕ := 6
abbrev TERNARY : ℕ := 7
abbrev FP254 : ℕ := 8
abbrev EQ_ISZERO : ℕ := 9
abbrev LOGIC : ℕ := 10
abbrev NOT_POP : ℕ := 11
abbrev SHIFT : ℕ := 12
abbrev JUMPDEST_KECCAK : ℕ := 13
abbrev JUMPS : ℕ := 14
abbrev PUSH_PROVER : ℕ := 15
abbrev DUP_SWAP : ℕ := 16
abbrev CONTEXT_OP : ℕ := 17
abbrev M_OP_32 : ℕ := 18
abbrev EXIT_KERNEL : ℕ := 19
abbrev M_OP_GENERAL : ℕ := 20
abbrev PC_PUSH0 : ℕ := 21
abbrev SYSCALL : ℕ := 22
abbrev EXCEPTION : ℕ := 23

/-- The bits of the opcode, least significant first. `columns/mod.rs:81-82`. -/
abbrev BIT (i : ℕ) : ℕ := 24 + i

/-- The columns shared by the operations: exception code bits, pseudo-inverses and flags. `columns/mod.rs:84-85`,
`columns/general.rs:9-20, 131-236`. -/
abbrev GENERAL (i : ℕ) : ℕ := 32 + i
abbrev SHOULD_JUMP : ℕ := 32
abbrev COND_SUM_PINV : ℕ := 33
abbrev HIGH_LIMB_SUM_INV : ℕ := 32
abbrev IS_NOT_KERNEL : ℕ := 32
abbrev PRUNING_FLAG : ℕ := 32
abbrev STACK_INV : ℕ := 36
abbrev STACK_INV_AUX : ℕ := 37
abbrev STACK_INV_AUX_2 : ℕ := 38
abbrev STACK_LEN_BOUNDS_AUX : ℕ := 39

abbrev CLOCK : ℕ := 40

/-- The general purpose memory channels `0..3`. `MemoryChannelView`, `columns/mod.rs:22-39, 90-92`. -/
abbrev USED (c : ℕ) : ℕ := 41 + 13 * c
abbrev IS_READ (c : ℕ) : ℕ := 42 + 13 * c
abbrev ADDR_CONTEXT (c : ℕ) : ℕ := 43 + 13 * c
abbrev ADDR_SEGMENT (c : ℕ) : ℕ := 44 + 13 * c
abbrev ADDR_VIRTUAL (c : ℕ) : ℕ := 45 + 13 * c
abbrev VALUE (c k : ℕ) : ℕ := 46 + 13 * c + k

/-- The partial channel, which shares its value with channel 0. `PartialMemoryChannelView`, `columns/mod.rs:46-52, 93-94`. -/
abbrev P_USED : ℕ := 80
abbrev P_IS_READ : ℕ := 81
abbrev P_ADDR_CONTEXT : ℕ := 82
abbrev P_ADDR_SEGMENT : ℕ := 83
abbrev P_ADDR_VIRTUAL : ℕ := 84

/-- `NUM_GP_CHANNELS` and `NUM_CHANNELS`. `membus.rs:11, 39`. -/
abbrev NUM_GP_CHANNELS : ℕ := 3
abbrev NUM_CHANNELS : ℕ := 5

/-- The memory segments named by the constraints. `memory/segments.rs:11-55`. -/
abbrev SEG_CODE : ℕ := 0
abbrev SEG_STACK : ℕ := 1
abbrev SEG_SHIFT_TABLE : ℕ := 13
abbrev SEG_JUMPDEST_BITS : ℕ := 14

/-- The offsets in the kernel's code the constraints mention. They depend on the assembled kernel; here they are parameters.
`control_flow.rs:37-47`, `syscalls_exceptions.rs:64-73`. -/
structure Labels where
  init : ℕ
  haltFinal : ℕ
  syscallJumptable : ℕ
  exceptionJumptable : ℕ

/-- All operation flags. -/
def flags : List ℕ := [BINARY, TERNARY, FP254, EQ_ISZERO, LOGIC, NOT_POP, SHIFT, JUMPDEST_KECCAK, JUMPS, PUSH_PROVER, DUP_SWAP, CONTEXT_OP,
  M_OP_32, EXIT_KERNEL, M_OP_GENERAL, PC_PUSH0, SYSCALL, EXCEPTION]

/-- `is_cpu_cycle`: the sum of the operation flags. `halt.rs:21`, `control_flow.rs:55`. -/
def cycle (r : Row R) : R := (flags.map (fun f => r f)).sum

/-- The number with the given bits of the opcode, from bit `lo` to bit `hi - 1`. `decode.rs:144-153`, `syscalls_exceptions.rs:57-62`. -/
def bitsSum (r : Row R) (lo hi : ℕ) : R := ((List.range' lo (hi - lo)).map (fun i => r (BIT i) * 2 ^ i)).sum

/-- The opcode. -/
def opcode (r : Row R) : R := bitsSum r 0 8

/-- Constraints on all eight limbs of a value. -/
def limbs8 (f : ℕ → R) : List (Constr R) := (List.range 8).map (fun k => ⟨.always, f k⟩)

/-! ### The constraints of each module -/

/-- `byte_unpacking.rs:11-46`. -/
def evalByteUnpacking (lv nv : Row R) : List (Constr R) :=
  let filter := lv M_OP_32 * (lv (BIT 5) - 1)
  [⟨.always, filter * (nv (VALUE 0 0) - lv (VALUE 0 0) - (bitsSum lv 0 5 + 1))⟩,
   ⟨.always, filter * (nv (VALUE 0 1) - lv (VALUE 0 1))⟩,
   ⟨.always, filter * (nv (VALUE 0 2) - lv (VALUE 0 2))⟩] ++
  (List.range' 3 5).map (fun k => ⟨.always, filter * nv (VALUE 0 k)⟩)

/-- `clock.rs:14-24`. -/
def evalClock (lv nv : Row R) : List (Constr R) :=
  [⟨.first, lv CLOCK - 1⟩, ⟨.transition, nv CLOCK - lv CLOCK - 1⟩]

/-- `KEEPS_CONTEXT`: all operations but `context_op`. `contextops.rs:17-39`. -/
def keepsContext : List ℕ := flags.filter (· ≠ CONTEXT_OP)

/-- `eval_packed_keep`. `contextops.rs:40-54`. -/
def evalContextKeep (lv nv : Row R) : List (Constr R) :=
  keepsContext.map (fun f => ⟨.transition, lv f * (nv CONTEXT - lv CONTEXT)⟩) ++
  [⟨.transition, lv CONTEXT_OP * (lv (BIT 0) - 1) * (nv CONTEXT - lv CONTEXT)⟩]

/-- `eval_packed_get`. `contextops.rs:79-103`. -/
def evalContextGet (lv nv : Row R) : List (Constr R) :=
  let filter := lv CONTEXT_OP * (1 - lv (BIT 0))
  [⟨.always, filter * (nv (VALUE 0 2) - lv CONTEXT)⟩] ++
  [0, 1, 3, 4, 5, 6, 7].map (fun k => ⟨.always, filter * nv (VALUE 0 k)⟩) ++
  [⟨.always, filter * lv PRUNING_FLAG⟩,
   ⟨.always, filter * (nv STACK_LEN - (lv STACK_LEN + 1))⟩,
   ⟨.always, filter * lv (USED 1)⟩,
   ⟨.always, filter * nv (USED 0)⟩]

/-- `eval_packed_set`. `contextops.rs:150-202`. -/
def evalContextSet (lv nv : Row R) : List (Constr R) :=
  let filter := lv CONTEXT_OP * lv (BIT 0)
  [⟨.always, filter * (lv (VALUE 0 2) - nv CONTEXT)⟩] ++
  [1, 3, 4, 5, 6, 7].map (fun k => ⟨.always, filter * lv (VALUE 0 k)⟩) ++
  [⟨.always, lv CONTEXT_OP * lv PRUNING_FLAG * (lv PRUNING_FLAG - 1)⟩,
   ⟨.always, filter * (lv PRUNING_FLAG - lv (VALUE 0 0))⟩,
   ⟨.always, lv CONTEXT_OP * (lv STACK_INV_AUX * lv (BIT 0) - lv STACK_INV_AUX_2)⟩] ++
  limbs8 (fun k => lv CONTEXT_OP * lv STACK_INV_AUX_2 * (nv (VALUE 0 k) - lv (VALUE 2 k))) ++
  [⟨.always, filter * lv (USED 1)⟩,
   ⟨.always, filter * nv (USED 0)⟩]

/-- `contextops::eval_packed`. `contextops.rs:277-314`. -/
def evalContext (lv nv : Row R) : List (Constr R) :=
  let filter := lv CONTEXT_OP
  let stackLen := nv STACK_LEN - (1 - lv (BIT 0))
  let newFilter := filter * lv STACK_INV_AUX
  evalContextKeep lv nv ++ evalContextGet lv nv ++ evalContextSet lv nv ++
  [⟨.always, filter * (stackLen * lv STACK_INV - lv STACK_INV_AUX)⟩,
   ⟨.always, filter * (lv STACK_INV_AUX - lv (USED 2))⟩,
   ⟨.always, newFilter * (lv (IS_READ 2) - lv (BIT 0))⟩,
   ⟨.always, newFilter * (lv (ADDR_CONTEXT 2) - nv CONTEXT)⟩,
   ⟨.always, newFilter * (lv (ADDR_SEGMENT 2) - SEG_STACK)⟩,
   ⟨.always, newFilter * (lv (ADDR_VIRTUAL 2) - (stackLen - 1))⟩]

/-- `NATIVE_INSTRUCTIONS`. `control_flow.rs:13-34`. -/
def nativeInstructions : List ℕ := [BINARY, TERNARY, FP254, EQ_ISZERO, LOGIC, NOT_POP, SHIFT, JUMPDEST_KECCAK, PC_PUSH0, DUP_SWAP, CONTEXT_OP,
  M_OP_GENERAL]

/-- `control_flow::eval_packed_generic`. `control_flow.rs:50-102`. -/
def evalControlFlow (L : Labels) (lv nv : Row R) : List (Constr R) :=
  let nextHalt := 1 - cycle nv
  let native := (nativeInstructions.map (fun f => lv f)).sum
  let proverInput := lv PUSH_PROVER * lv (BIT 7)
  let lastNonCpu := (cycle lv - 1) * cycle nv
  [⟨.transition, cycle lv * (cycle nv + nextHalt - 1)⟩,
   ⟨.transition, native * (lv PC - nv PC + 1)⟩,
   ⟨.transition, native * (lv KERNEL_MODE - nv KERNEL_MODE)⟩,
   ⟨.transition, proverInput * (lv PC - nv PC + 1)⟩,
   ⟨.transition, proverInput * (lv KERNEL_MODE - nv KERNEL_MODE)⟩,
   ⟨.always, lv PUSH_PROVER * (lv KERNEL_MODE + lv IS_NOT_KERNEL - 1)⟩,
   ⟨.transition, lastNonCpu * (nv PC - L.init)⟩,
   ⟨.transition, lastNonCpu * (nv KERNEL_MODE - 1)⟩,
   ⟨.transition, lastNonCpu * nv STACK_LEN⟩]

/-- `OPCODES`: the first opcode of a block, the binary logarithm of its length, whether it is for the kernel only, and its flag.
`decode.rs:34-52`. -/
def opcodes : List (ℕ × ℕ × Bool × ℕ) :=
  [(0x14, 1, false, EQ_ISZERO), (0x56, 1, false, JUMPS), (0x80, 5, false, DUP_SWAP), (0xf6, 1, true, CONTEXT_OP), (0xf9, 0, true, EXIT_KERNEL)]

/-- `COMBINED_OPCODES`. `decode.rs:57-69`. -/
def combinedOpcodes : List ℕ := [LOGIC, FP254, BINARY, TERNARY, SHIFT, M_OP_GENERAL, JUMPDEST_KECCAK, NOT_POP, PC_PUSH0, M_OP_32, PUSH_PROVER]

/-- The number of mismatched bits among the top `8 - len` bits. `decode.rs:125-138`. -/
def mismatch (lv : Row R) (oc len : ℕ) : R :=
  ((List.range' len (8 - len)).map (fun i => if oc.testBit i then 1 - lv (BIT i) else lv (BIT i))).sum

/-- `decode::eval_packed_generic`. `decode.rs:90-221`. -/
def evalDecode (lv : Row R) : List (Constr R) :=
  let k := lv KERNEL_MODE
  let flagSum := (opcodes.map (fun o => lv o.2.2.2)).sum + (combinedOpcodes.map (fun f => lv f)).sum
  let oc := opcode lv
  let high3 := bitsSum lv 5 8
  [⟨.always, k * (k - 1)⟩] ++
  (List.range 8).map (fun i => ⟨.always, lv (BIT i) * (lv (BIT i) - 1)⟩) ++
  opcodes.map (fun o => ⟨.always, lv o.2.2.2 * (lv o.2.2.2 - 1)⟩) ++
  combinedOpcodes.map (fun f => ⟨.always, lv f * (lv f - 1)⟩) ++
  [⟨.always, flagSum * (flagSum - 1)⟩] ++
  opcodes.map (fun o => ⟨.always, lv o.2.2.2 * ((if o.2.2.1 then 1 - k else 0) + mismatch lv o.1 o.2.1)⟩) ++
  [⟨.always, (k - 1) * lv FP254⟩,
   ⟨.always, lv TERNARY * lv (BIT 1) * (k - 1)⟩,
   ⟨.always, (k - 1) * lv M_OP_GENERAL⟩,
   ⟨.always, (oc - 0xfb) * (oc - 0xfc) * lv M_OP_GENERAL⟩,
   ⟨.always, (k - 1) * lv JUMPDEST_KECCAK * (1 - lv (BIT 1))⟩,
   ⟨.always, (oc - 0x21) * (oc - 0x5b) * lv JUMPDEST_KECCAK⟩,
   ⟨.always, (oc - 0x58) * (oc - 0x5f) * lv PC_PUSH0⟩,
   ⟨.always, (oc - 0x19) * (oc - 0x50) * lv NOT_POP⟩,
   ⟨.always, (k - 1) * lv M_OP_32⟩,
   ⟨.always, (high3 - 0xc0) * (oc - 0xf8) * lv M_OP_32⟩,
   ⟨.always, (oc - 0xee) * (high3 - 0x60) * lv PUSH_PROVER⟩,
   ⟨.always, lv PUSH_PROVER * lv (BIT 7) * (k - 1)⟩]

/-- `constrain_channel_packed`. `dup_swap.rs:43-61`. -/
def constrainChannel (lv : Row R) (isRead : R) (filter offset : R) (c : ℕ) : List (Constr R) :=
  [⟨.always, filter * (lv (USED c) - 1)⟩,
   ⟨.always, filter * (lv (IS_READ c) - isRead)⟩,
   ⟨.always, filter * (lv (ADDR_CONTEXT c) - lv CONTEXT)⟩,
   ⟨.always, filter * (lv (ADDR_SEGMENT c) - SEG_STACK)⟩,
   ⟨.always, filter * (lv (ADDR_VIRTUAL c) - (lv STACK_LEN - 1 - offset))⟩]

/-- `eval_packed_dup`. `dup_swap.rs:113-140`; `channels_equal_packed` is at `14-24`. -/
def evalDup (lv nv : Row R) (n : R) : List (Constr R) :=
  let filter := lv DUP_SWAP * (1 - lv (BIT 4))
  limbs8 (fun k => filter * (lv (VALUE 1 k) - lv (VALUE 0 k))) ++
  constrainChannel lv 0 filter 0 1 ++
  limbs8 (fun k => filter * (lv (VALUE 2 k) - nv (VALUE 0 k))) ++
  constrainChannel lv 1 filter n 2 ++
  [⟨.transition, filter * (nv STACK_LEN - lv STACK_LEN - 1)⟩,
   ⟨.always, filter * nv (USED 0)⟩]

/-- `eval_packed_swap`. `dup_swap.rs:205-238`. -/
def evalSwap (lv nv : Row R) (n : R) : List (Constr R) :=
  let filter := lv DUP_SWAP * lv (BIT 4)
  limbs8 (fun k => filter * (lv (VALUE 0 k) - lv (VALUE 2 k))) ++
  constrainChannel lv 0 filter (n + 1) 2 ++
  limbs8 (fun k => filter * (lv (VALUE 1 k) - nv (VALUE 0 k))) ++
  constrainChannel lv 1 filter (n + 1) 1 ++
  [⟨.always, filter * (nv STACK_LEN - lv STACK_LEN)⟩,
   ⟨.always, filter * nv (USED 0)⟩]

/-- `dup_swap::eval_packed`. `dup_swap.rs:307-322`. -/
def evalDupSwap (lv nv : Row R) : List (Constr R) :=
  let n := lv (BIT 0) + lv (BIT 1) * 2 + lv (BIT 2) * 4 + lv (BIT 3) * 8
  evalDup lv nv n ++ evalSwap lv nv n ++ [⟨.always, lv DUP_SWAP * lv P_USED⟩]

/-- `SIMPLE_OPCODES`: the flags whose operations always cost the same. `gas.rs:21-42`. -/
def simpleCosts : List (ℕ × ℕ) := [(FP254, 0), (EQ_ISZERO, 3), (LOGIC, 3), (SHIFT, 3), (DUP_SWAP, 3), (CONTEXT_OP, 0), (M_OP_32, 0),
  (M_OP_GENERAL, 0), (PC_PUSH0, 2)]

/-- `gas::eval_packed`. `gas.rs:142-149`. -/
def evalGas (lv nv : Row R) : List (Constr R) :=
  let filter := (simpleCosts.map (fun o => lv o.1)).sum
  let gasUsed := (simpleCosts.map (fun o => (o.2 : R) * lv o.1)).sum
  let diff := nv GAS - lv GAS
  let costFilter := lv (BIT 0) + lv (BIT 4) - lv (BIT 0) * lv (BIT 4)
  [⟨.transition, filter * (nv GAS - (lv GAS + gasUsed))⟩] ++
  simpleCosts.map (fun o => ⟨.transition, lv o.1 * (diff - (o.2 : R))⟩) ++
  [⟨.transition, lv JUMPS * (diff - (8 + lv (BIT 0) * 2))⟩,
   ⟨.transition, lv BINARY * (diff - (5 + costFilter * (3 - 5)))⟩,
   ⟨.transition, lv TERNARY * (diff - (8 - lv (BIT 1) * 8))⟩,
   ⟨.transition, lv NOT_POP * (diff - ((1 - lv (BIT 0)) * 2 + lv (BIT 0) * 3))⟩,
   ⟨.transition, lv JUMPDEST_KECCAK * (diff - (lv (BIT 1) * 1 + (1 - lv (BIT 1)) * 0))⟩,
   ⟨.transition, lv PUSH_PROVER * (diff - ((1 - lv (BIT 7)) * 3 + lv (BIT 7) * 0))⟩,
   ⟨.transition, (cycle lv - 1) * cycle nv * nv GAS⟩]

/-- `halt::eval_packed`. `halt.rs:16-50`. -/
def evalHalt (L : Labels) (lv nv : Row R) : List (Constr R) :=
  let halt := 1 - cycle lv
  let nextHalt := 1 - cycle nv
  [⟨.always, halt * (halt - 1)⟩,
   ⟨.transition, halt * (nextHalt - 1)⟩,
   ⟨.always, halt * (lv KERNEL_MODE - 1)⟩] ++
  (List.range NUM_GP_CHANNELS).map (fun c => ⟨.always, halt * lv (USED c)⟩) ++
  [⟨.last, halt - 1⟩,
   ⟨.always, halt * (lv PC - L.haltFinal)⟩]

/-- `eval_packed_exit_kernel`. `jumps.rs:13-30`. -/
def evalExitKernel (lv nv : Row R) : List (Constr R) :=
  [⟨.transition, lv EXIT_KERNEL * (lv (VALUE 0 0) - nv PC)⟩,
   ⟨.transition, lv EXIT_KERNEL * (lv (VALUE 0 1) - nv KERNEL_MODE)⟩,
   ⟨.transition, lv EXIT_KERNEL * (lv (VALUE 0 6) - nv GAS)⟩,
   ⟨.always, lv EXIT_KERNEL * lv (VALUE 0 7)⟩]

/-- The next row reads the new top of the stack in channel 0. `jumps.rs:87-95`, `memio.rs:190-200`, `stack.rs:234-245, 385-395`. -/
def readTop (nv : Row R) (filter : R) : List (Constr R) :=
  [⟨.transition, filter * (nv (USED 0) - 1)⟩,
   ⟨.transition, filter * (nv (IS_READ 0) - 1)⟩,
   ⟨.transition, filter * (nv (ADDR_CONTEXT 0) - nv CONTEXT)⟩,
   ⟨.transition, filter * (nv (ADDR_SEGMENT 0) - SEG_STACK)⟩,
   ⟨.transition, filter * (nv (ADDR_VIRTUAL 0) - (nv STACK_LEN - 1))⟩]

/-- `eval_packed_jump_jumpi`. `jumps.rs:68-175`. The range of channels disabled at lines 153-155 is empty. -/
def evalJumps (lv nv : Row R) : List (Constr R) :=
  let filter := lv JUMPS
  let isJump := filter * (1 - lv (BIT 0))
  let isJumpi := filter * lv (BIT 0)
  let lenDiff := lv STACK_LEN - 1 - lv (BIT 0)
  let condSum := ((List.range 8).map (fun k => lv (VALUE 1 k))).sum
  let dstHiSum := ((List.range' 1 7).map (fun k => lv (VALUE 0 k))).sum
  readTop nv (lenDiff * filter) ++
  [⟨.always, filter * (lenDiff * lv STACK_INV - lv STACK_INV_AUX)⟩,
   ⟨.transition, filter * (lv STACK_INV_AUX - 1) * nv (USED 0)⟩,
   ⟨.always, isJump * (lv (VALUE 1 0) - 1)⟩] ++
  (List.range' 1 7).map (fun k => ⟨.always, isJump * lv (VALUE 1 k)⟩) ++
  [⟨.always, filter * lv SHOULD_JUMP * (lv SHOULD_JUMP - 1)⟩,
   ⟨.always, filter * (lv SHOULD_JUMP - 1) * condSum⟩,
   ⟨.always, filter * (lv COND_SUM_PINV * condSum - lv SHOULD_JUMP)⟩,
   ⟨.always, filter * lv SHOULD_JUMP * dstHiSum⟩,
   ⟨.always, filter * (lv (VALUE 2 0) - 1)⟩,
   ⟨.always, filter * (lv (USED 2) - lv SHOULD_JUMP * (1 - lv KERNEL_MODE))⟩,
   ⟨.always, filter * (lv (IS_READ 2) - 1)⟩,
   ⟨.always, filter * (lv (ADDR_CONTEXT 2) - lv CONTEXT)⟩,
   ⟨.always, filter * (lv (ADDR_SEGMENT 2) - SEG_JUMPDEST_BITS)⟩,
   ⟨.always, filter * (lv (ADDR_VIRTUAL 2) - lv (VALUE 0 0))⟩,
   ⟨.always, filter * lv P_USED⟩,
   ⟨.always, isJump * lv (USED 1)⟩,
   ⟨.transition, isJump * (nv STACK_LEN - lv STACK_LEN + 1)⟩,
   ⟨.transition, isJumpi * (nv STACK_LEN - lv STACK_LEN + 2)⟩,
   ⟨.transition, filter * (lv SHOULD_JUMP - 1) * (nv PC - (lv PC + 1))⟩,
   ⟨.transition, filter * lv SHOULD_JUMP * (nv PC - lv (VALUE 0 0))⟩]

/-- `membus::eval_packed`. `membus.rs:43-57`. -/
def evalMembus (lv : Row R) : List (Constr R) :=
  [⟨.always, lv CODE_CONTEXT - (1 - lv KERNEL_MODE) * lv CONTEXT⟩] ++
  (List.range NUM_GP_CHANNELS).map (fun c => ⟨.always, lv (USED c) * (lv (USED c) - 1)⟩) ++
  [⟨.always, lv P_USED * (lv P_USED - 1)⟩]

/-- `StackBehavior`. `stack.rs:51-55`. -/
structure Behavior where
  pops : ℕ
  pushes : Bool
  disableOthers : Bool

/-- `stack::eval_packed_one`. `stack.rs:193-313`. -/
def evalOne (lv nv : Row R) (filter : R) (b : Behavior) : List (Constr R) :=
  (if b.pops > 0 then
    (List.range' 1 (b.pops - 1)).flatMap (fun i =>
      [⟨.always, filter * (lv (USED i) - 1)⟩,
       ⟨.always, filter * (lv (IS_READ i) - 1)⟩,
       ⟨.always, filter * (lv (ADDR_CONTEXT i) - lv CONTEXT)⟩,
       ⟨.always, filter * (lv (ADDR_SEGMENT i) - SEG_STACK)⟩,
       ⟨.always, filter * (lv (ADDR_VIRTUAL i) - (lv STACK_LEN - ((i + 1 : ℕ) : R)))⟩]) ++
    [⟨.always, filter * lv P_USED⟩] ++
    (if b.pushes then []
     else
      let lenDiff := lv STACK_LEN - (b.pops : R)
      readTop nv (lenDiff * filter) ++
      [⟨.always, filter * (lenDiff * lv STACK_INV - lv STACK_INV_AUX)⟩,
       ⟨.transition, filter * (lv STACK_INV_AUX - 1) * nv (USED 0)⟩])
  else if b.pushes then
    let newFilter := lv STACK_LEN * filter
    [⟨.always, newFilter * (lv P_USED - 1)⟩,
     ⟨.always, newFilter * lv P_IS_READ⟩,
     ⟨.always, newFilter * (lv P_ADDR_CONTEXT - lv CONTEXT)⟩,
     ⟨.always, newFilter * (lv P_ADDR_SEGMENT - SEG_STACK)⟩,
     ⟨.always, newFilter * (lv P_ADDR_VIRTUAL - (lv STACK_LEN - 1))⟩,
     ⟨.always, filter * (lv STACK_LEN * lv STACK_INV - lv STACK_INV_AUX)⟩,
     ⟨.always, filter * (lv STACK_INV_AUX - 1) * lv P_USED⟩]
  else
    [⟨.always, filter * nv (USED 0)⟩] ++
    limbs8 (fun k => filter * (lv (VALUE 0 k) - nv (VALUE 0 k))) ++
    [⟨.always, filter * lv P_USED⟩]) ++
  (if b.disableOthers then
    (List.range' (max 1 b.pops) (NUM_GP_CHANNELS - b.pushes.toNat - max 1 b.pops)).map (fun c => ⟨.always, filter * lv (USED c)⟩)
   else []) ++
  [⟨.transition, filter * (nv STACK_LEN - (lv STACK_LEN - (b.pops : R) + (b.pushes.toNat : R)))⟩]

/-- `BASIC_UNARY_OP` and `IS_ZERO_STACK_BEHAVIOR`. `stack.rs:58-62, 186-190`. -/
def unaryOp : Behavior := ⟨1, true, true⟩
/-- `BASIC_BINARY_OP`, `KECCAK_GENERAL_OP` and `EQ_STACK_BEHAVIOR`. `stack.rs:64-68, 94-98, 180-184`. -/
def binaryOp : Behavior := ⟨2, true, true⟩
/-- `BASIC_TERNARY_OP`. `stack.rs:70-74`. -/
def ternaryOp : Behavior := ⟨3, true, true⟩
/-- `MLOAD_GENERAL_OP`. `stack.rs:88-92`. -/
def mloadGeneralOp : Behavior := ⟨1, true, false⟩
/-- `JUMPDEST_OP`. `stack.rs:100-104`. -/
def jumpdestOp : Behavior := ⟨0, false, true⟩

/-- `STACK_BEHAVIORS`: the flags with a stack behaviour of their own. `stack.rs:128-177`. -/
def stackBehaviors : List (ℕ × Behavior) :=
  [(BINARY, binaryOp), (TERNARY, ternaryOp), (FP254, binaryOp), (LOGIC, binaryOp), (SHIFT, ⟨2, true, false⟩),
   (PUSH_PROVER, ⟨0, true, true⟩), (PC_PUSH0, ⟨0, true, true⟩), (M_OP_32, ⟨2, true, false⟩), (EXIT_KERNEL, ⟨1, false, true⟩),
   (SYSCALL, ⟨0, true, false⟩), (EXCEPTION, ⟨0, true, false⟩)]

/-- `MIGHT_OVERFLOW` and `MAX_USER_STACK_SIZE`. `stack.rs:16, 23-44`. -/
def mightOverflow : List ℕ := [PUSH_PROVER, PC_PUSH0, DUP_SWAP, EXIT_KERNEL]
abbrev MAX_USER_STACK_SIZE : ℕ := 1024

/-- `eval_packed_load`. `memio.rs:22-64`. -/
def evalLoad (lv nv : Row R) : List (Constr R) :=
  let filter := lv M_OP_GENERAL * lv (BIT 0)
  [⟨.always, filter * (lv (USED 1) - 1)⟩,
   ⟨.always, filter * (lv (IS_READ 1) - 1)⟩,
   ⟨.always, filter * (lv (ADDR_CONTEXT 1) - lv (VALUE 0 2))⟩,
   ⟨.always, filter * (lv (ADDR_SEGMENT 1) - lv (VALUE 0 1))⟩,
   ⟨.always, filter * (lv (ADDR_VIRTUAL 1) - lv (VALUE 0 0))⟩] ++
  limbs8 (fun k => filter * (lv (VALUE 1 k) - nv (VALUE 0 k))) ++
  [⟨.always, filter * lv (USED 2)⟩,
   ⟨.always, filter * lv P_USED⟩] ++
  evalOne lv nv filter mloadGeneralOp

/-- `eval_packed_store`. `memio.rs:137-208`. -/
def evalStore (lv nv : Row R) : List (Constr R) :=
  let filter := lv M_OP_GENERAL * (lv (BIT 0) - 1)
  let lenDiff := lv STACK_LEN - 2
  let isTopRead := lv STACK_INV_AUX * (1 - lv (BIT 0))
  [⟨.always, filter * (lv P_USED - 1)⟩,
   ⟨.always, filter * lv P_IS_READ⟩,
   ⟨.always, filter * (lv P_ADDR_CONTEXT - lv (VALUE 1 2))⟩,
   ⟨.always, filter * (lv P_ADDR_SEGMENT - lv (VALUE 1 1))⟩,
   ⟨.always, filter * (lv P_ADDR_VIRTUAL - lv (VALUE 1 0))⟩,
   ⟨.always, filter * lv (USED 2)⟩,
   ⟨.always, filter * (lv (USED 1) - 1)⟩,
   ⟨.always, filter * (lv (IS_READ 1) - 1)⟩,
   ⟨.always, filter * (lv (ADDR_CONTEXT 1) - lv CONTEXT)⟩,
   ⟨.always, filter * (lv (ADDR_SEGMENT 1) - SEG_STACK)⟩,
   ⟨.always, filter * (lv (ADDR_VIRTUAL 1) - (lv STACK_LEN - 2))⟩,
   ⟨.always, lv M_OP_GENERAL * (lenDiff * lv STACK_INV - lv STACK_INV_AUX)⟩,
   ⟨.always, lv M_OP_GENERAL * (lv STACK_INV_AUX_2 - isTopRead)⟩] ++
  readTop nv (lv M_OP_GENERAL * lv STACK_INV_AUX_2) ++
  [⟨.always, lv M_OP_GENERAL * (lv STACK_INV_AUX - 1) * nv (USED 0)⟩,
   ⟨.always, lv M_OP_GENERAL * lv (BIT 0) * nv (USED 0)⟩]

/-- `P_LIMBS`: the modulus of the base field of BN254. `modfp254.rs:14-16`. -/
def fpLimbs : List ℕ := [0xd87cfd47, 0x3c208c16, 0x6871ca8d, 0x97816a91, 0x8181585d, 0xb85045b6, 0xe131a029, 0x30644e72]

/-- `modfp254::eval_packed`. `modfp254.rs:19-34`. -/
def evalModFp254 (lv : Row R) : List (Constr R) :=
  limbs8 (fun k => lv FP254 * (lv (VALUE 2 k) - ((fpLimbs.getD k 0 : ℕ) : R)))

/-- `pc::eval_packed`. `pc.rs:10-22`. -/
def evalPc (lv nv : Row R) : List (Constr R) :=
  let filter := lv PC_PUSH0 * (1 - lv (BIT 0))
  [⟨.always, filter * (nv (VALUE 0 0) - lv PC)⟩] ++ (List.range' 1 7).map (fun k => ⟨.always, filter * nv (VALUE 0 k)⟩)

/-- `push0::eval_packed`. `push0.rs:10-20`. -/
def evalPush0 (lv nv : Row R) : List (Constr R) :=
  limbs8 (fun k => lv PC_PUSH0 * lv (BIT 0) * nv (VALUE 0 k))

/-- `shift::eval_packed`. `shift.rs:14-62`. The range of channels disabled at lines 49-51 is empty. -/
def evalShift (lv : Row R) : List (Constr R) :=
  let highSum := ((List.range' 1 7).map (fun k => lv (VALUE 0 k))).sum
  [⟨.always, lv SHIFT * lv (USED 2) * (lv (IS_READ 2) - 1)⟩,
   ⟨.always, lv SHIFT * (highSum * lv HIGH_LIMB_SUM_INV - (1 - lv (USED 2)))⟩,
   ⟨.always, lv SHIFT * highSum * lv (USED 2)⟩,
   ⟨.always, lv SHIFT * lv (ADDR_CONTEXT 2)⟩,
   ⟨.always, lv SHIFT * (lv (ADDR_SEGMENT 2) - SEG_SHIFT_TABLE)⟩,
   ⟨.always, lv SHIFT * (lv (ADDR_VIRTUAL 2) - lv (VALUE 0 0))⟩]

/-- `simple_logic::not::eval_packed`. `simple_logic/not.rs:15-32`. -/
def evalNot (lv nv : Row R) : List (Constr R) :=
  let filter := lv NOT_POP * lv (BIT 0)
  limbs8 (fun k => filter * (nv (VALUE 0 k) + lv (VALUE 0 k) - (2 ^ 32 - 1))) ++ evalOne lv nv filter unaryOp

/-- `simple_logic::eq_iszero::eval_packed`. `simple_logic/eq_iszero.rs:46-101`. -/
def evalEqIszero (lv nv : Row R) : List (Constr R) :=
  let eqFilter := lv EQ_ISZERO * (1 - lv (BIT 0))
  let iszeroFilter := lv EQ_ISZERO * lv (BIT 0)
  let equal := nv (VALUE 0 0)
  let dot := ((List.range 8).map (fun k => (lv (VALUE 0 k) - lv (VALUE 1 k)) * lv (GENERAL k))).sum
  [⟨.always, lv EQ_ISZERO * equal * (1 - equal)⟩] ++
  (List.range' 1 7).map (fun k => ⟨.always, lv EQ_ISZERO * nv (VALUE 0 k)⟩) ++
  limbs8 (fun k => iszeroFilter * lv (VALUE 1 k)) ++
  limbs8 (fun k => lv EQ_ISZERO * equal * (lv (VALUE 0 k) - lv (VALUE 1 k))) ++
  [⟨.always, lv EQ_ISZERO * (dot - (1 - equal))⟩] ++
  evalOne lv nv eqFilter binaryOp ++ evalOne lv nv iszeroFilter unaryOp

/-- The constraints of POP. `stack.rs:374-415`. -/
def evalPop (lv nv : Row R) : List (Constr R) :=
  let lenDiff := lv STACK_LEN - 1
  let isTopRead := lv STACK_INV_AUX * (1 - lv (BIT 0))
  [⟨.always, lv NOT_POP * (lenDiff * lv STACK_INV - lv STACK_INV_AUX)⟩,
   ⟨.always, lv NOT_POP * (lv STACK_INV_AUX_2 - isTopRead)⟩] ++
  readTop nv (lv NOT_POP * lv STACK_INV_AUX_2) ++
  [⟨.always, lv NOT_POP * (lv STACK_INV_AUX_2 - 1) * nv (USED 0)⟩,
   ⟨.always, lv NOT_POP * (lv (BIT 0) - 1) * lv (USED 1)⟩,
   ⟨.always, lv NOT_POP * (lv (BIT 0) - 1) * lv (USED 2)⟩,
   ⟨.always, lv NOT_POP * (lv (BIT 0) - 1) * lv P_USED⟩,
   ⟨.transition, lv NOT_POP * (lv (BIT 0) - 1) * (nv STACK_LEN - lv STACK_LEN + 1)⟩]

/-- `stack::eval_packed`. `stack.rs:316-416`. -/
def evalStack (lv nv : Row R) : List (Constr R) :=
  stackBehaviors.flatMap (fun o => evalOne lv nv (lv o.1) o.2) ++
  mightOverflow.map (fun f => ⟨.transition, lv f * ((nv STACK_LEN - ((MAX_USER_STACK_SIZE + 1 : ℕ) : R)) * lv STACK_LEN_BOUNDS_AUX -
    (1 - nv KERNEL_MODE))⟩) ++
  evalOne lv nv (lv JUMPDEST_KECCAK * lv (BIT 1)) jumpdestOp ++
  evalOne lv nv (lv JUMPDEST_KECCAK * (1 - lv (BIT 1))) binaryOp ++
  evalPop lv nv

/-- `syscalls_exceptions::eval_packed`. `syscalls_exceptions.rs:23-129`; `BYTES_PER_OFFSET` is three, `EXC_STOP_CODE` six
(`witness/transition.rs:25`). -/
def evalSyscalls (L : Labels) (lv nv : Row R) : List (Constr R) :=
  let total := lv SYSCALL + lv EXCEPTION
  let excCode := ((List.range 3).map (fun i => lv (GENERAL i) * 2 ^ i)).sum
  [⟨.always, lv SYSCALL * (lv SYSCALL - 1)⟩,
   ⟨.always, lv EXCEPTION * (lv EXCEPTION - 1)⟩,
   ⟨.always, lv EXCEPTION * (excCode - 6) * lv KERNEL_MODE⟩] ++
  (List.range 3).map (fun i => ⟨.always, lv EXCEPTION * lv (GENERAL i) * (lv (GENERAL i) - 1)⟩) ++
  [⟨.always, total * lv (USED 1)⟩,
   ⟨.always, total * (lv (IS_READ 1) - 1)⟩,
   ⟨.always, total * lv (ADDR_CONTEXT 1)⟩,
   ⟨.always, total * (lv (ADDR_SEGMENT 1) - SEG_CODE)⟩,
   ⟨.always, lv SYSCALL * (lv (ADDR_VIRTUAL 1) - (L.syscallJumptable + opcode lv * 3))⟩,
   ⟨.always, lv EXCEPTION * (lv (ADDR_VIRTUAL 1) - (L.exceptionJumptable + excCode * 3))⟩] ++
  (List.range' 1 7).map (fun k => ⟨.always, total * lv (VALUE 1 k)⟩) ++
  [⟨.always, total * lv (USED 2)⟩,
   ⟨.transition, total * (nv PC - lv (VALUE 1 0))⟩,
   ⟨.transition, total * (nv KERNEL_MODE - 1)⟩,
   ⟨.transition, total * nv GAS⟩,
   ⟨.always, lv SYSCALL * (nv (VALUE 0 0) - (lv PC + 1))⟩,
   ⟨.always, lv EXCEPTION * (nv (VALUE 0 0) - lv PC)⟩,
   ⟨.always, lv SYSCALL * (nv (VALUE 0 1) - lv KERNEL_MODE)⟩,
   ⟨.always, total * (nv (VALUE 0 6) - lv GAS)⟩,
   ⟨.always, total * nv (VALUE 0 7)⟩,
   ⟨.always, lv EXCEPTION * (excCode - 6) * nv (VALUE 0 1)⟩] ++
  [2, 3, 4, 5].map (fun k => ⟨.always, total * nv (VALUE 0 k)⟩)

/-- The constraints of all modules in the order of the code, kept apart. `CpuStark::eval_packed_generic`, `cpu_stark.rs:593-625`. -/
def groups (L : Labels) (lv nv : Row R) : List (List (Constr R)) :=
  [evalByteUnpacking lv nv, evalClock lv nv, evalContext lv nv, evalControlFlow L lv nv, evalDecode lv, evalDupSwap lv nv, evalGas lv nv,
   evalHalt L lv nv, evalExitKernel lv nv ++ evalJumps lv nv, evalMembus lv, evalLoad lv nv ++ evalStore lv nv, evalModFp254 lv, evalPc lv nv,
   evalPush0 lv nv, evalShift lv, evalNot lv nv ++ evalEqIszero lv nv, evalStack lv nv, evalSyscalls L lv nv]

/-- `CpuStark::eval_packed_generic`. `cpu_stark.rs:593-625`. -/
def evalCpu (L : Labels) (lv nv : Row R) : List (Constr R) := (groups L lv nv).flatten

/-- A CPU table of height `n` satisfies its constraints. -/
def Accepted (L : Labels) (n : ℕ) (T : ℕ → Row F) : Prop := Satisfies (evalCpu L) n T

end Verif.Stark.Cpu
