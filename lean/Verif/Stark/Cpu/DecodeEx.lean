import Verif.Stark.Cpu.Decode

/-! Concrete tables for C91. -/

namespace Verif.Stark.Cpu

/-- The limbs of a number in a channel. -/
def vals (c a : ℕ) : List (ℕ × ℕ) := (List.range 8).map (fun k => (VALUE c k, a / 2 ^ (32 * k) % 2 ^ 32))

/-- Channel `c` reads the element of the stack of context 0 at address `v`. -/
def readStack (c v : ℕ) : List (ℕ × ℕ) := [(USED c, 1), (IS_READ c, 1), (ADDR_SEGMENT c, SEG_STACK), (ADDR_VIRTUAL c, v)]

/-- `ADD`, executed under the flag of ternary operations: it takes three elements off the stack. -/
def confusedRows : List (List (ℕ × ℕ)) :=
  [[(PC, 99), (STACK_LEN, 5), (KERNEL_MODE, 1), (TERNARY, 1), (CLOCK, 1)] ++ opBits 0x01 ++ vals 0 (2 ^ 256 - 1) ++ vals 1 5 ++
     readStack 1 3 ++ readStack 2 2,
   padRow 2 ++ [(STACK_LEN, 3), (GAS, 8)] ++ vals 0 4]

theorem confused_accepted : Accepted labels 2 (mkTable confusedRows) :=
  mkTable_accepted (rows := confusedRows) (by decide +kernel)

theorem add_exported : Arith.Exports 65536 (Arith.mkTable Arith.honestRows) 0x01 (2 ^ 256 - 1) 5 0 4 :=
  ⟨0, by decide, by decide +kernel, by decide +kernel, by decide, ⟨by decide +kernel, by decide +kernel⟩, ⟨by decide +kernel, by decide +kernel⟩,
    ⟨by decide +kernel, by decide +kernel⟩, ⟨by decide +kernel, by decide +kernel⟩⟩

theorem confused_linked : ArithLinked 2 (mkTable confusedRows) 65536 (Arith.mkTable Arith.honestRows) := by
  intro i hi
  have h01 : i = 0 ∨ i = 1 := by omega
  rcases h01 with e | e <;> subst e
  · intro _
    exact ⟨0x01, 2 ^ 256 - 1, 5, 0, 4, add_exported, by decide +kernel, ⟨by decide +kernel, by decide +kernel⟩,
      ⟨by decide +kernel, by decide +kernel⟩, ⟨by decide +kernel, by decide +kernel⟩, ⟨by decide +kernel, by decide +kernel⟩⟩
  · intro h
    exact absurd h (by decide +kernel)

theorem no_logic {rows : List (List (ℕ × ℕ))} {n : ℕ} (h : ∀ i < n, mkTable rows i LOGIC = 0) {m : ℕ} {B : ℕ → Row F} :
    LogicLinked n (mkTable rows) m B := by
  intro i hi h1
  rw [h i hi] at h1
  exact absurd h1 (by decide)

/-- C91 fails: an addition is accepted as a ternary operation, with the honest arithmetic table, which has no range check that stands in
for an operation. It takes three elements off the stack and pushes the sum of two of them. -/
theorem C91_violated : ¬ C91_statement := by
  intro h
  have := h labels 2 (mkTable confusedRows) 65536 (Arith.mkTable Arith.honestRows) 0 (fun _ _ => 0) confused_accepted Arith.honest_accepted
    Arith.P_big confused_linked (fun i hi => absurd hi (by omega)) (no_logic (by decide +kernel)) 0 (by decide) TERNARY (by decide) (by decide)
    (by decide) (by decide +kernel)
  revert this
  decide +kernel

/-- `MULFP254`, an operation for the kernel only, executed in user mode under the flag of binary operations, followed by a system call. -/
def userFpRows : List (List (ℕ × ℕ)) :=
  [[(PC, 7), (STACK_LEN, 5), (BINARY, 1), (CLOCK, 1)] ++ opBits 0x0d ++ vals 0 (2 ^ 256 - 1) ++ vals 1 (2 ^ 256 - 2) ++
     vals 2 Arith.bn254Base ++ readStack 1 3,
   [(PC, 8), (STACK_LEN, 4), (SYSCALL, 1), (GAS, 3), (CLOCK, 2), (STACK_INV_AUX, 1), (STACK_INV, (P - 1) / 4 * 3 + 1), (P_USED, 1), (P_ADDR_SEGMENT, SEG_STACK),
     (P_ADDR_VIRTUAL, 3), (IS_READ 1, 1), (ADDR_VIRTUAL 1, 200 + 3 * 0x0a)] ++ opBits 0x0a ++
     vals 0 ((2 ^ 256 - 1) * (2 ^ 256 - 2) % Arith.bn254Base) ++ vals 1 100,
   padRow 3 ++ [(STACK_LEN, 5)] ++ vals 0 (9 + 3 * 2 ^ 192)]

theorem userFp_accepted : Accepted labels 3 (mkTable userFpRows) :=
  mkTable_accepted (rows := userFpRows) (by decide +kernel)

theorem mulfp_exported : Arith.Exports 65536 (Arith.mkTable Arith.honestRows) 0x0d (2 ^ 256 - 1) (2 ^ 256 - 2) Arith.bn254Base
    ((2 ^ 256 - 1) * (2 ^ 256 - 2) % Arith.bn254Base) :=
  ⟨11, by decide, by decide +kernel, by decide +kernel, by decide, ⟨by decide +kernel, by decide +kernel⟩, ⟨by decide +kernel, by decide +kernel⟩,
    ⟨by decide +kernel, by decide +kernel⟩, ⟨by decide +kernel, by decide +kernel⟩⟩

/-- C91 fails for privileges, too: user code executes an instruction for the kernel only. (Row 1, a system call, is looked up as a range
check; here only the lookup of row 0 is shown.) -/
theorem C91_violated_user : Accepted labels 3 (mkTable userFpRows) ∧
    (∃ a b c out, Arith.Exports 65536 (Arith.mkTable Arith.honestRows) 0x0d a b c out ∧ Holds (mkTable userFpRows 0) 0 a ∧
      Holds (mkTable userFpRows 0) 1 b ∧ Holds (mkTable userFpRows 0) 2 c ∧ Holds (mkTable userFpRows 1) 0 out) ∧
    mkTable userFpRows 0 BINARY = 1 ∧ op (mkTable userFpRows 0) = 0x0d ∧ kernel (mkTable userFpRows 0) = false ∧
    ∀ f ∈ flags, ¬ Valid f 0x0d false :=
  ⟨userFp_accepted, ⟨_, _, _, _, mulfp_exported, ⟨by decide +kernel, by decide +kernel⟩, ⟨by decide +kernel, by decide +kernel⟩,
    ⟨by decide +kernel, by decide +kernel⟩, ⟨by decide +kernel, by decide +kernel⟩⟩, by decide +kernel, by decide +kernel, by decide +kernel,
    by decide +kernel⟩

/-! The hypotheses of `C91_decode_partial` are met: `DUP1` in kernel mode, as the code would generate it. -/

def dupRows : List (List (ℕ × ℕ)) :=
  [[(PC, 99), (STACK_LEN, 2), (KERNEL_MODE, 1), (DUP_SWAP, 1), (CLOCK, 1)] ++ opBits 0x80 ++ vals 0 77 ++ vals 1 77 ++ vals 2 77 ++
     [(USED 1, 1), (ADDR_SEGMENT 1, SEG_STACK), (ADDR_VIRTUAL 1, 1)] ++ readStack 2 1,
   padRow 2 ++ [(STACK_LEN, 3), (GAS, 3)] ++ vals 0 77]

theorem dup_accepted : Accepted labels 2 (mkTable dupRows) := mkTable_accepted (rows := dupRows) (by decide +kernel)

example : Valid DUP_SWAP 0x80 true :=
  have h := (C91_decode_partial dup_accepted (m := 0) (B := fun _ _ => 0) (fun i hi => absurd hi (by omega)) (no_logic (by decide +kernel)) (i := 0)
    (by decide) (f := DUP_SWAP) (by decide) (by decide +kernel)).2.1 (by decide)
  (by decide +kernel : op (mkTable dupRows 0) = 0x80) ▸ (by decide +kernel : kernel (mkTable dupRows 0) = true) ▸ h

end Verif.Stark.Cpu
