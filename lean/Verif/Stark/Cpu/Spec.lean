import Verif.Stark.Cpu.Basic
import Verif.Stark.Arith.Export
import Verif.Stark.Logic

/-! What the machine is to do: its instruction set, what each instruction costs and does to the stack's length, and what the CPU table asks
of other tables. (Specification, after the Yellow Paper for user instructions and after `docs/arch` and
`cpu/kernel/opcodes.rs:1-142` for those of the kernel; the lookups are those of `cpu_stark.rs`.) -/

namespace Verif.Stark.Cpu

/-- The instruction set: a flag, the opcodes it stands for, and whether they are for the kernel only. -/
def instructionSet : List (ℕ × List ℕ × Bool) :=
  [(BINARY, [0x01, 0x02, 0x03, 0x04, 0x06, 0x10, 0x11, 0x1a], false),
   (TERNARY, [0x08, 0x09], false), (TERNARY, [0x0f], true),
   (FP254, [0x0c, 0x0d, 0x0e], true),
   (EQ_ISZERO, [0x14, 0x15], false),
   (LOGIC, [0x16, 0x17, 0x18], false),
   (NOT_POP, [0x19, 0x50], false),
   (SHIFT, [0x1b, 0x1c], false),
   (JUMPDEST_KECCAK, [0x5b], false), (JUMPDEST_KECCAK, [0x21], true),
   (JUMPS, [0x56, 0x57], false),
   (PUSH_PROVER, List.range' 0x60 32, false), (PUSH_PROVER, [0xee], true),
   (DUP_SWAP, List.range' 0x80 32, false),
   (CONTEXT_OP, [0xf6, 0xf7], true),
   (M_OP_32, List.range' 0xc0 32 ++ [0xf8], true),
   (EXIT_KERNEL, [0xf9], true),
   (M_OP_GENERAL, [0xfb, 0xfc], true),
   (PC_PUSH0, [0x58, 0x5f], false)]

/-- The opcode `o` may be executed under the flag `f` in the given mode. -/
def Valid (f o : ℕ) (kernel : Bool) : Prop := ∃ e ∈ instructionSet, e.1 = f ∧ o ∈ e.2.1 ∧ (e.2.2 = true → kernel = true)

instance (f o : ℕ) (k : Bool) : Decidable (Valid f o k) := by unfold Valid; infer_instance

/-- Gas cost, number of elements popped and pushed. SET_CONTEXT and EXIT_KERNEL set the stack length or the gas otherwise; DUP
and SWAP are counted by their difference. -/
def cost (o : ℕ) : Option (ℕ × ℕ × ℕ) :=
  if o ∈ [0x01, 0x03, 0x10, 0x11, 0x14, 0x16, 0x17, 0x18, 0x1a, 0x1b, 0x1c] then some (3, 2, 1)
  else if o ∈ [0x02, 0x04, 0x06] then some (5, 2, 1)
  else if o ∈ [0x08, 0x09] then some (8, 3, 1)
  else if o ∈ [0x0c, 0x0d, 0x0e, 0x21] then some (0, 2, 1)
  else if o = 0x0f then some (0, 3, 1)
  else if o ∈ [0x15, 0x19] then some (3, 1, 1)
  else if o = 0x50 then some (2, 1, 0)
  else if o = 0x56 then some (8, 1, 0)
  else if o = 0x57 then some (10, 2, 0)
  else if o ∈ [0x58, 0x5f] then some (2, 0, 1)
  else if o = 0x5b then some (1, 0, 0)
  else if 0x60 ≤ o ∧ o < 0x90 then some (3, 0, 1)
  else if 0x90 ≤ o ∧ o < 0xa0 then some (3, 0, 0)
  else if (0xc0 ≤ o ∧ o < 0xe0) ∨ o = 0xf8 then some (0, 2, 1)
  else if o ∈ [0xee, 0xf6] then some (0, 0, 1)
  else if o = 0xfb then some (0, 1, 1)
  else if o = 0xfc then some (0, 2, 0)
  else none

/-- Kernel mode. -/
def kernel (r : Row F) : Bool := decide (r KERNEL_MODE = 1)

/-! ### Lookups into other tables -/

/-- A channel of a row holds the number `a`. -/
def Holds (r : Row F) (c a : ℕ) : Prop := a < 2 ^ 256 ∧ ∀ k < 8, r (VALUE c k) = ((a / 2 ^ (32 * k) % 2 ^ 32 : ℕ) : F)

/-- The filter of the lookup into the arithmetic table. `ctl_arithmetic_base_rows`, `cpu_stark.rs:106-132`. -/
def arithFilter (lv : Row F) : F :=
  lv PUSH_PROVER * lv (BIT 7) + (lv BINARY + lv FP254 + lv TERNARY + lv SHIFT + lv SYSCALL + lv EXCEPTION)

/-- Every operation the CPU table looks up is exported by the arithmetic table `A`. `ctl_arithmetic_base_rows`,
`cpu_stark.rs:106-132`; the next row is cyclic. (What the lookup argument enforces; the argument itself is not modelled.) -/
def ArithLinked (n : ℕ) (T : ℕ → Row F) (m : ℕ) (A : ℕ → Row F) : Prop :=
  ∀ i < n, arithFilter (T i) = 1 → ∃ o a b c out, Arith.Exports m A o a b c out ∧ opcode (T i) = (o : F) ∧
    Holds (T i) 0 a ∧ Holds (T i) 1 b ∧ Holds (T i) 2 c ∧ Holds (T ((i + 1) % n)) 0 out

/-- Every operation the CPU table looks up is exported by the logic table `A`. `ctl_data_logic`, `ctl_filter_logic`,
`cpu_stark.rs:91-97, 100-102`. -/
def LogicLinked (n : ℕ) (T : ℕ → Row F) (m : ℕ) (A : ℕ → Row F) : Prop :=
  ∀ i < n, T i LOGIC = 1 → ∃ o a b out, Logic.Exports m A o a b out ∧ opcode (T i) = (o : F) ∧
    Holds (T i) 0 a ∧ Holds (T i) 1 b ∧ Holds (T ((i + 1) % n)) 0 out

end Verif.Stark.Cpu
