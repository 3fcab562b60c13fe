import Verif.Stark.Cpu.Decode

/-! The registers of the machine: program counter, mode, context, gas and stack length after every instruction. -/

namespace Verif.Stark.Cpu

variable {L : Labels} {lv nv : Row F}

/-! ### Specification -/

/-- The number of bytes of a PUSH after its opcode. -/
def pushBytes (o : ℕ) : ℕ := if 0x60 ≤ o ∧ o < 0x80 then o - 0x5f else 0

/-- The program counter after `o`: `JUMP` goes to its operand, `JUMPI` does if its condition is not zero, `EXIT_KERNEL` goes where its
operand says and `PUSHn` skips the `n` bytes it pushes. -/
def PcSpec (o : ℕ) (lv nv : Row F) : Prop :=
  if o = 0x56 then ∀ d, Holds lv 0 d → d < 2 ^ 32 ∧ nv PC = (d : F)
  else if o = 0x57 then ∀ d c, Holds lv 0 d → Holds lv 1 c → if c = 0 then nv PC = lv PC + 1 else d < 2 ^ 32 ∧ nv PC = (d : F)
  else if o = 0xf9 then nv PC = lv (VALUE 0 0)
  else nv PC = lv PC + 1 + (pushBytes o : F)

/-- The mode after `o`: only `EXIT_KERNEL` changes it. -/
def ModeSpec (o : ℕ) (lv nv : Row F) : Prop := nv KERNEL_MODE = if o = 0xf9 then lv (VALUE 0 1) else lv KERNEL_MODE

/-- The context after `o`: only `SET_CONTEXT` changes it. -/
def ContextSpec (o : ℕ) (lv nv : Row F) : Prop := nv CONTEXT = if o = 0xf7 then lv (VALUE 0 2) else lv CONTEXT

/-- The gas used after `o`. -/
def GasSpec (o : ℕ) (lv nv : Row F) : Prop :=
  if o = 0xf9 then nv GAS = lv (VALUE 0 6)
  else if o = 0xf7 then nv GAS = lv GAS
  else ∀ g p q, cost o = some (g, p, q) → nv GAS = lv GAS + (g : F)

/-- The stack length after `o`. That after `SET_CONTEXT` is read from memory. -/
def LenSpec (o : ℕ) (lv nv : Row F) : Prop :=
  if o = 0xf9 then nv STACK_LEN + 1 = lv STACK_LEN
  else ∀ g p q, cost o = some (g, p, q) → nv STACK_LEN + (p : F) = lv STACK_LEN + (q : F)

/-- C92 in full: the registers after every instruction are as the instruction set says. -/
def C92_statement : Prop :=
  ∀ (L : Labels) (n : ℕ) (T : ℕ → Row F), Accepted L n T → ∀ i, i + 1 < n → ∀ f ∈ flags, T i f = 1 → Valid f (op (T i)) (kernel (T i)) →
    PcSpec (op (T i)) (T i) (T (i + 1)) ∧ ModeSpec (op (T i)) (T i) (T (i + 1)) ∧ ContextSpec (op (T i)) (T i) (T (i + 1)) ∧
    GasSpec (op (T i)) (T i) (T (i + 1)) ∧ LenSpec (op (T i)) (T i) (T (i + 1))

/-! ### Constraints -/

theorem cut {f : ℕ} (h1 : lv f = 1) {v : F} (h : lv f * v = 0) : v = 0 := by
  rw [h1, one_mul] at h
  exact h

theorem Step.only (h : Step L lv nv) {f : ℕ} (hf : f ∈ flags) (h1 : lv f = 1) : ∀ g ∈ flags, g ≠ f → lv g = 0 := h.always.only hf h1

/-- Gas in terms of the code. -/
def gasOf (f o : ℕ) : ℕ :=
  if f = JUMPS then 8 + (o.testBit 0).toNat * 2
  else if f = BINARY then (if o.testBit 0 || o.testBit 4 then 3 else 5)
  else if f = TERNARY then (if o.testBit 1 then 0 else 8)
  else if f = NOT_POP then (if o.testBit 0 then 3 else 2)
  else if f = JUMPDEST_KECCAK then (if o.testBit 1 then 1 else 0)
  else if f = PUSH_PROVER then (if o.testBit 7 then 0 else 3)
  else (simpleCosts.lookup f).getD 0

/-- The flags of instructions that add to the gas. -/
def gasFlags : List ℕ := [BINARY, TERNARY, FP254, EQ_ISZERO, LOGIC, NOT_POP, SHIFT, JUMPDEST_KECCAK, JUMPS, PUSH_PROVER, DUP_SWAP, CONTEXT_OP,
  M_OP_32, M_OP_GENERAL, PC_PUSH0]

theorem Step.gas (h : Step L lv nv) {f : ℕ} (hf : f ∈ gasFlags) (h1 : lv f = 1) : nv GAS = lv GAS + (gasOf f (op lv) : F) := by
  obtain ⟨hlt, hop, hb⟩ := h.always.op_bits
  have simple : ∀ e ∈ simpleCosts, lv e.1 * (nv GAS - lv GAS - (e.2 : F)) = 0 := by
    intro e he
    refine h.get gas_mem (w := .transition) ?_ (.inr rfl)
    unfold evalGas
    simp only [List.mem_append]
    exact .inl (.inr (List.mem_map.2 ⟨e, he, rfl⟩))
  have get : ∀ v : F, (⟨.transition, v⟩ : Constr F) ∈ evalGas lv nv → v = 0 := fun v hv => h.get gas_mem hv (.inr rfl)
  have g1 := get (lv JUMPS * (nv GAS - lv GAS - (8 + lv (BIT 0) * 2))) (by simp [evalGas])
  have g2 := get (lv BINARY * (nv GAS - lv GAS - (5 + (lv (BIT 0) + lv (BIT 4) - lv (BIT 0) * lv (BIT 4)) * (3 - 5)))) (by simp [evalGas])
  have g3 := get (lv TERNARY * (nv GAS - lv GAS - (8 - lv (BIT 1) * 8))) (by simp [evalGas])
  have g4 := get (lv NOT_POP * (nv GAS - lv GAS - ((1 - lv (BIT 0)) * 2 + lv (BIT 0) * 3))) (by simp [evalGas])
  have g5 := get (lv JUMPDEST_KECCAK * (nv GAS - lv GAS - (lv (BIT 1) * 1 + (1 - lv (BIT 1)) * 0))) (by simp [evalGas])
  have g6 := get (lv PUSH_PROVER * (nv GAS - lv GAS - ((1 - lv (BIT 7)) * 3 + lv (BIT 7) * 0))) (by simp [evalGas])
  rw [hb 0 (by decide), fbit_cast] at g1 g2 g4
  rw [hb 1 (by decide), fbit_cast] at g3 g5
  rw [hb 4 (by decide), fbit_cast] at g2
  rw [hb 7 (by decide), fbit_cast] at g6
  by_cases hs : ∃ c, (f, c) ∈ simpleCosts
  · obtain ⟨c, hc⟩ := hs
    have he := cut h1 (simple (f, c) hc)
    have : gasOf f (op lv) = c := by
      have : ∀ e ∈ simpleCosts, (simpleCosts.lookup e.1).getD 0 = e.2 ∧ e.1 ≠ JUMPS ∧ e.1 ≠ BINARY ∧ e.1 ≠ TERNARY ∧ e.1 ≠ NOT_POP ∧
        e.1 ≠ JUMPDEST_KECCAK ∧ e.1 ≠ PUSH_PROVER := by decide
      obtain ⟨h0, h2, h3, h4, h5, h6, h7⟩ := this _ hc
      unfold gasOf
      rw [if_neg h2, if_neg h3, if_neg h4, if_neg h5, if_neg h6, if_neg h7]
      exact h0
    rw [this]
    linear_combination he
  · have hf' : f = JUMPS ∨ f = BINARY ∨ f = TERNARY ∨ f = NOT_POP ∨ f = JUMPDEST_KECCAK ∨ f = PUSH_PROVER := by
      have : ∀ f ∈ gasFlags, (∃ e ∈ simpleCosts, e.1 = f) ∨ (f = JUMPS ∨ f = BINARY ∨ f = TERNARY ∨ f = NOT_POP ∨ f = JUMPDEST_KECCAK ∨
        f = PUSH_PROVER) := by decide
      rcases this f hf with ⟨e, he, rfl⟩ | h
      · exact absurd ⟨e.2, he⟩ hs
      · exact h
    rcases hf' with e | e | e | e | e | e <;> subst e
    · have := cut h1 g1
      simp only [gasOf, if_true]
      push_cast
      linear_combination this
    · have := cut h1 g2
      have e : gasOf BINARY (op lv) = if (op lv).testBit 0 || (op lv).testBit 4 then 3 else 5 := rfl
      rw [e]
      cases hb0 : (op lv).testBit 0 <;> cases hb4 : (op lv).testBit 4 <;> rw [hb0, hb4] at this <;>
        simp at this ⊢ <;> linear_combination this
    · have := cut h1 g3
      have e : gasOf TERNARY (op lv) = if (op lv).testBit 1 then 0 else 8 := rfl
      rw [e]
      cases hb1 : (op lv).testBit 1 <;> rw [hb1] at this <;> simp at this ⊢ <;> linear_combination this
    · have := cut h1 g4
      have e : gasOf NOT_POP (op lv) = if (op lv).testBit 0 then 3 else 2 := rfl
      rw [e]
      cases hb1 : (op lv).testBit 0 <;> rw [hb1] at this <;> simp at this ⊢ <;> linear_combination this
    · have := cut h1 g5
      have e : gasOf JUMPDEST_KECCAK (op lv) = if (op lv).testBit 1 then 1 else 0 := rfl
      rw [e]
      cases hb1 : (op lv).testBit 1 <;> rw [hb1] at this <;> simp at this ⊢ <;> linear_combination this
    · have := cut h1 g6
      have e : gasOf PUSH_PROVER (op lv) = if (op lv).testBit 7 then 0 else 3 := rfl
      rw [e]
      cases hb1 : (op lv).testBit 7 <;> rw [hb1] at this <;> simp at this ⊢ <;> linear_combination this

theorem gas_table : ∀ e ∈ instructionSet, ∀ o ∈ e.2.1, (o = 0xf9 ∧ e.1 = EXIT_KERNEL) ∨
    (e.1 ∈ gasFlags ∧ o ≠ 0xf9 ∧ ((o = 0xf7 ∧ gasOf e.1 o = 0) ∨ (o ≠ 0xf7 ∧ ((cost o).map (·.1)) = some (gasOf e.1 o)))) := by
  decide +kernel

theorem Step.gasSpec (h : Step L lv nv) {f : ℕ} (h1 : lv f = 1) {k : Bool} (hv : Valid f (op lv) k) : GasSpec (op lv) lv nv := by
  obtain ⟨e, he, rfl, ho, _⟩ := hv
  unfold GasSpec
  rcases gas_table e he _ ho with ⟨e1, e2⟩ | ⟨hg, hne, ht⟩
  · rw [if_pos e1]
    rw [e2] at h1
    have := h.get jumps_mem (w := .transition) (v := lv EXIT_KERNEL * (lv (VALUE 0 6) - nv GAS)) (by simp [evalExitKernel]) (.inr rfl)
    exact (sub_eq_zero.1 (cut h1 this)).symm
  · rw [if_neg hne]
    have hgas := h.gas hg h1
    rcases ht with ⟨e1, e2⟩ | ⟨e1, e2⟩
    · rw [if_pos e1, hgas, e2]
      simp
    · rw [if_neg e1]
      intro g p q hc
      rw [hc] at e2
      simp only [Option.map_some, Option.some.injEq] at e2
      rw [hgas, e2]

/-! ### Context -/

theorem Step.context (h : Step L lv nv) {f : ℕ} (hf : f ∈ flags) (hne : f ≠ CONTEXT_OP) (h1 : lv f = 1) : nv CONTEXT = lv CONTEXT := by
  have := h.get context_mem (w := .transition) (v := lv f * (nv CONTEXT - lv CONTEXT)) ?_ (.inr rfl)
  · exact sub_eq_zero.1 (cut h1 this)
  · unfold evalContext evalContextKeep
    simp only [List.mem_append]
    refine .inl (.inl (.inl (.inl (List.mem_map.2 ⟨f, ?_, rfl⟩))))
    unfold keepsContext
    exact List.mem_filter.2 ⟨hf, by simpa using hne⟩

theorem Step.contextSpec (h : Step L lv nv) {f : ℕ} (hf : f ∈ flags) (h1 : lv f = 1) {k : Bool} (hv : Valid f (op lv) k) :
    ContextSpec (op lv) lv nv := by
  obtain ⟨hlt, hop, hb⟩ := h.always.op_bits
  obtain ⟨e, he, rfl, ho, _⟩ := hv
  unfold ContextSpec
  have table : ∀ e ∈ instructionSet, ∀ o ∈ e.2.1, (e.1 = CONTEXT_OP ∧ (o = 0xf6 ∨ o = 0xf7)) ∨ (e.1 ≠ CONTEXT_OP ∧ o ≠ 0xf7) := by decide +kernel
  rcases table e he _ ho with ⟨e1, e2⟩ | ⟨e1, e2⟩
  · rw [e1] at h1
    have hk := h.get context_mem (w := .transition) (v := lv CONTEXT_OP * (lv (BIT 0) - 1) * (nv CONTEXT - lv CONTEXT))
      (by simp [evalContext, evalContextKeep]) (.inr rfl)
    have hs := h.get context_mem (w := .always) (v := lv CONTEXT_OP * lv (BIT 0) * (lv (VALUE 0 2) - nv CONTEXT))
      (by simp [evalContext, evalContextSet]) (.inl rfl)
    rw [h1, hb 0 (by decide), one_mul] at hk hs
    rcases e2 with e2 | e2
    · rw [e2] at hk ⊢
      rw [if_neg (by decide)]
      simp [fbit] at hk
      linear_combination -hk
    · rw [e2] at hs ⊢
      rw [if_pos rfl]
      simp [fbit] at hs
      linear_combination -hs
  · rw [if_neg e2]
    exact h.context hf e1 h1

end Verif.Stark.Cpu
