import Verif.Stark.Arith.Examples

/-! What the CPU table can rely on: the operations the arithmetic table exports to it. -/

namespace Verif.Stark.Arith

open Finset

/-- The EVM's meaning of an operation of the arithmetic table: its opcode, its three operands (the third is used by the
ternary operations and, as the power of two read from memory, by shifts) and its result. (Specification.) -/
def OpSpec (op a b c out : ℕ) : Prop :=
  match op with
  | 0x01 => out = (a + b) % 2 ^ 256
  | 0x02 => out = a * b % 2 ^ 256
  | 0x03 => out = (a + 2 ^ 256 - b) % 2 ^ 256
  | 0x04 => out = if b = 0 then 0 else a / b
  | 0x06 => out = if b = 0 then 0 else a % b
  | 0x08 => out = if c = 0 then 0 else (a + b) % c
  | 0x09 => out = if c = 0 then 0 else a * b % c
  | 0x0c => out = (a + b) % bn254Base
  | 0x0d => out = a * b % bn254Base
  | 0x0e => (out : ℤ) = ((a : ℤ) - b) % (bn254Base : ℤ)
  | 0x0f => (out : ℤ) = if c = 0 then 0 else ((a : ℤ) - b) % (c : ℤ)
  | 0x10 => out = if a < b then 1 else 0
  | 0x11 => out = if b < a then 1 else 0
  | 0x1a => out = if a < 32 then b / 256 ^ (31 - a) % 256 else 0
  | 0x1b => c = (if a < 256 then 2 ^ a else 0) → out = if a < 256 then b * 2 ^ a % 2 ^ 256 else 0
  | 0x1c => c = (if a < 256 then 2 ^ a else 0) → out = if a < 256 then b / 2 ^ a else 0
  | _ => True

/-- C70 in full: every operation the table exports has the result of the EVM. -/
def C70_statement : Prop := ∀ (n : ℕ) (T : ℕ → Row F), Accepted n T → n < P → ∀ op a b c out, Exports n T op a b c out → OpSpec op a b c out

/-- The opcodes that stand for operations of this table. -/
def arithOpcodes : List ℕ := combinedOps.map (·.2)

/-- Rows marked as range checks carry no opcode of an arithmetic operation. Neither the constraints of this table nor the
lookup enforce this. -/
def NoImpersonation (n : ℕ) (T : ℕ → Row F) : Prop :=
  ∀ i < n, T i IS_RANGE_CHECK = 1 → ∀ op ∈ arithOpcodes, T i OPCODE_COL ≠ (op : F)

theorem sum_flags (row : Row F) : ctlFilter row = ∑ f ∈ range N_FLAGS, row f := by
  simp only [ctlFilter, combinedOps, List.map_cons, List.map_nil, List.cons_append, List.nil_append, List.sum_cons, List.sum_nil,
    N_FLAGS, sum_range_succ, sum_range_zero]
  simp only [IS_ADD, IS_MUL, IS_SUB, IS_DIV, IS_MOD, IS_ADDMOD, IS_MULMOD, IS_ADDFP254, IS_MULFP254, IS_SUBFP254, IS_SUBMOD, IS_LT, IS_GT,
    IS_BYTE, IS_SHL, IS_SHR, IS_RANGE_CHECK]
  ring

/-- The row behind an exported operation has exactly one flag. -/
theorem export_flag {n : ℕ} {T : ℕ → Row F} (h : Accepted n T) {i : ℕ} (hi : i < n) (hf : ctlFilter (T i) = 1) :
    ∃ f < N_FLAGS, Only (T i) f := by
  by_contra hno
  push Not at hno
  have : ∀ f < N_FLAGS, T i f = 0 := fun f hf =>
    (flag_bits h hi f hf).resolve_right (fun h1 => hno f hf (flags_only h hi hf h1))
  rw [sum_flags, sum_eq_zero (fun f hf => this f (mem_range.1 hf))] at hf
  exact zero_ne_one hf

theorem opcode_of_flag {n : ℕ} {T : ℕ → Row F} (h : Accepted n T) {i : ℕ} (hi : i < n) {f : ℕ} (ho : Only (T i) f) (hf : f ≠ IS_RANGE_CHECK) :
    ctlOpcode (T i) = ((combinedOps.map (fun o => if o.1 = f then o.2 else 0)).sum : ℕ) := by
  have hrc : T i IS_RANGE_CHECK = 0 := ho.2 _ (by decide) (Ne.symm hf)
  have hop : T i OPCODE_COL = 0 := by
    have : (1 - T i IS_RANGE_CHECK) * T i OPCODE_COL = 0 := h.at hi (c := ⟨.always, (1 - T i IS_RANGE_CHECK) * T i OPCODE_COL⟩)
      (by simp [evalArith, evalFlags]) trivial
    rw [hrc, sub_zero, one_mul] at this
    exact this
  unfold ctlOpcode
  rw [hop, List.sum_append, List.sum_singleton, add_zero]
  have hlt : ∀ o ∈ combinedOps, o.1 < N_FLAGS := by decide
  have : ∀ l : List (ℕ × ℕ), (∀ o ∈ l, o.1 < N_FLAGS) →
      (l.map (fun o => (o.2 : F) * T i o.1)).sum = ((l.map (fun o => if o.1 = f then o.2 else 0)).sum : ℕ) := by
    intro l
    induction l with
    | nil => intro _; simp
    | cons o l ih =>
      intro hl
      rw [List.map_cons, List.sum_cons, ih (fun o ho => hl o (List.mem_cons_of_mem _ ho)), List.map_cons, List.sum_cons, Nat.cast_add]
      congr 1
      by_cases e : o.1 = f
      · rw [if_pos e, e, ho.1, mul_one]
      · rw [if_neg e, ho.2 _ (hl o List.mem_cons_self) e, mul_zero, Nat.cast_zero]
  exact this combinedOps hlt

/-- C70 in part: true if no row impersonates an arithmetic operation and DIV is not by zero nor SHR by more than 255 bits.
The full statement is `C70_statement`; it fails in all three cases. -/
theorem C70_exports_partial {n : ℕ} {T : ℕ → Row F} (h : Accepted n T) (hn : n < P) (hrc : NoImpersonation n T) {op a b c out : ℕ}
    (he : Exports n T op a b c out) (hdiv : op = 0x04 → b ≠ 0) (hshr : op = 0x1c → c ≠ 0) : OpSpec op a b c out := by
  obtain ⟨i, hi, hf, hop, hop256, wa, wb, wc, wo⟩ := he
  have hr := ranged h hn i hi
  have ea := words_num hr (by unfold InShared; decide) wa
  have eb := words_num hr (by unfold InShared; decide) wb
  have ec := words_num hr (by unfold InShared; decide) wc
  have eo := words_num hr (by unfold InShared; decide) wo
  obtain ⟨f, hf17, ho⟩ := export_flag h hi hf
  have hP : (256 : ℕ) < P := by decide
  by_cases hR : f = IS_RANGE_CHECK
  · subst hR
    have hz : ctlOpcode (T i) = T i OPCODE_COL := by
      unfold ctlOpcode
      rw [List.sum_append, List.sum_singleton]
      have : ∀ l : List (ℕ × ℕ), (∀ o ∈ l, o.1 < N_FLAGS ∧ o.1 ≠ IS_RANGE_CHECK) → (l.map (fun o => (o.2 : F) * T i o.1)).sum = 0 := by
        intro l
        induction l with
        | nil => intro _; simp
        | cons o l ih =>
          intro hl
          have h1 := hl o List.mem_cons_self
          rw [List.map_cons, List.sum_cons, ih (fun o ho => hl o (List.mem_cons_of_mem _ ho)), ho.2 _ h1.1 h1.2, mul_zero, add_zero]
      rw [this combinedOps (by decide), zero_add]
    have hne : op ∉ arithOpcodes := by
      intro hmem
      exact hrc i hi ho.1 op hmem (by rw [← hz, hop])
    unfold OpSpec
    split <;> first | exact absurd (by decide) hne | trivial
  · have hcode := opcode_of_flag h hi ho hR
    rw [hop] at hcode
    have hle : ∀ f < N_FLAGS, (combinedOps.map (fun o => if o.1 = f then o.2 else 0)).sum < 256 := by decide
    have hcode := lift_nat hcode (by omega) (by have := hle f hf17; omega)
    have h1 := ho.1
    subst ea eb ec eo
    have hcases : f = IS_ADD ∨ f = IS_MUL ∨ f = IS_SUB ∨ f = IS_DIV ∨ f = IS_MOD ∨ f = IS_ADDMOD ∨ f = IS_MULMOD ∨ f = IS_ADDFP254 ∨
        f = IS_MULFP254 ∨ f = IS_SUBFP254 ∨ f = IS_SUBMOD ∨ f = IS_LT ∨ f = IS_GT ∨ f = IS_BYTE ∨ f = IS_SHL ∨ f = IS_SHR := by
      simp only [N_FLAGS, IS_ADD, IS_MUL, IS_SUB, IS_DIV, IS_MOD, IS_ADDMOD, IS_MULMOD, IS_ADDFP254, IS_MULFP254, IS_SUBFP254, IS_SUBMOD, IS_LT,
        IS_GT, IS_BYTE, IS_SHL, IS_SHR, IS_RANGE_CHECK] at hf17 hR ⊢
      omega
    rcases hcases with rfl | rfl | rfl | rfl | rfl | rfl | rfl | rfl | rfl | rfl | rfl | rfl | rfl | rfl | rfl | rfl
    · obtain rfl : op = 0x01 := hcode.trans (by decide)
      exact C35_add h hn hi h1
    · obtain rfl : op = 0x02 := hcode.trans (by decide)
      exact C36_mul h hn hi h1
    · obtain rfl : op = 0x03 := hcode.trans (by decide)
      exact C35_sub h hn hi h1
    · obtain rfl : op = 0x04 := hcode.trans (by decide)
      exact (C37_div_partial h hn hi h1 (hdiv rfl)).trans (if_neg (hdiv rfl)).symm
    · obtain rfl : op = 0x06 := hcode.trans (by decide)
      exact C37_mod h hn hi h1
    · obtain rfl : op = 0x08 := hcode.trans (by decide)
      exact C38_addmod h hn hi h1
    · obtain rfl : op = 0x09 := hcode.trans (by decide)
      exact C38_mulmod h hn hi h1
    · obtain rfl : op = 0x0c := hcode.trans (by decide)
      exact C38_addfp254 h hn hi h1
    · obtain rfl : op = 0x0d := hcode.trans (by decide)
      exact C38_mulfp254 h hn hi h1
    · obtain rfl : op = 0x0e := hcode.trans (by decide)
      exact C38_subfp254 h hn hi h1
    · obtain rfl : op = 0x0f := hcode.trans (by decide)
      exact C38_submod h hn hi h1
    · obtain rfl : op = 0x10 := hcode.trans (by decide)
      exact C35_lt h hn hi h1
    · obtain rfl : op = 0x11 := hcode.trans (by decide)
      exact C35_gt h hn hi h1
    · obtain rfl : op = 0x1a := hcode.trans (by decide)
      exact C39_byte h hn hi h1
    · obtain rfl : op = 0x1b := hcode.trans (by decide)
      exact fun hc => C40_shl h hn hi h1 hc
    · obtain rfl : op = 0x1c := hcode.trans (by decide)
      refine fun hc => ?_
      by_cases hlt : num (T i) INPUT_REGISTER_0 < 256
      · rw [if_pos hlt] at hc ⊢
        exact C40_shr_partial h hn hi h1 hc
      · rw [if_neg hlt] at hc
        exact absurd hc (hshr rfl)

/-! ### Violations -/

theorem P_big : 65536 < P := by decide

/-- DIV: the table accepts 5 / 0 = 5. -/
theorem C37_div_violated : ¬ C37_div_statement := by
  intro h
  have := h 65536 (mkTable cheatRows) cheat_accepted P_big 0 (by decide) (by decide +kernel)
  revert this
  decide +kernel

/-- SHR: the table accepts 5 >> 256 = 5. -/
theorem C40_shr_violated : ¬ C40_shr_statement := by
  intro h
  have := h 65536 (mkTable cheatRows) cheat_accepted P_big 2 (by decide) 256 (by decide +kernel) (by decide +kernel)
  revert this
  decide +kernel

/-- A range check row exports `ADD 1 1 = 3`. -/
theorem C70_impersonation : Exports 65536 (mkTable cheatRows) 0x01 1 1 0 3 :=
  ⟨4, by decide, by decide +kernel, by decide +kernel, by decide, ⟨by decide, by decide +kernel⟩, ⟨by decide, by decide +kernel⟩,
    ⟨by decide, by decide +kernel⟩, ⟨by decide, by decide +kernel⟩⟩

theorem C70_violated : ¬ C70_statement := by
  intro h
  have : 3 = (1 + 1) % 2 ^ 256 := h 65536 (mkTable cheatRows) cheat_accepted P_big 0x01 1 1 0 3 C70_impersonation
  revert this
  decide

/-! ### The hypotheses are met -/

theorem honest_no_impersonation : NoImpersonation 65536 (mkTable honestRows) := by
  intro i _ hrc
  exfalso
  have : mkTable honestRows i IS_RANGE_CHECK = 0 := by
    rcases Nat.lt_or_ge i honestRows.length with h | h
    · have hi : i < 17 := h
      interval_cases i <;> decide +kernel
    · exact mkTable_pad h (by decide)
  rw [this] at hrc
  exact zero_ne_one hrc

/-- The honest table exports `SUBMOD 5 (2^256 - 9) (2^128 + 51)`, a difference that is negative. -/
theorem honest_submod : Exports 65536 (mkTable honestRows) 0x0f 5 (2 ^ 256 - 9) (2 ^ 128 + 51) (num (mkTable honestRows 7) OUTPUT_REGISTER) :=
  ⟨7, by decide, by decide +kernel, by decide +kernel, by decide, ⟨by decide +kernel, by decide +kernel⟩, ⟨by decide +kernel, by decide +kernel⟩,
    ⟨by decide +kernel, by decide +kernel⟩, ⟨by decide +kernel, by decide +kernel⟩⟩

example : OpSpec 0x0f 5 (2 ^ 256 - 9) (2 ^ 128 + 51) (num (mkTable honestRows 7) OUTPUT_REGISTER) :=
  C70_exports_partial honest_accepted P_big honest_no_impersonation honest_submod (by decide) (by decide)

example : num (mkTable honestRows 0) OUTPUT_REGISTER = 4 :=
  (C35_add honest_accepted P_big (i := 0) (by decide) (by decide +kernel)).trans (by decide +kernel)
example : num (mkTable honestRows 1) OUTPUT_REGISTER = 1 :=
  (C35_lt honest_accepted P_big (i := 1) (by decide) (by decide +kernel)).trans (by decide +kernel)
example : num (mkTable honestRows 2) OUTPUT_REGISTER = (2 ^ 256 - 3) * (2 ^ 129 + 7) % 2 ^ 256 :=
  (C36_mul honest_accepted P_big (i := 2) (by decide) (by decide +kernel)).trans (by decide +kernel)
example : num (mkTable honestRows 3) OUTPUT_REGISTER = (2 ^ 255 + 12345) % (2 ^ 70 + 3) :=
  (C37_mod honest_accepted P_big (i := 3) (by decide) (by decide +kernel)).trans (by decide +kernel)
example : num (mkTable honestRows 5) OUTPUT_REGISTER = (2 ^ 255 + 12345) / (2 ^ 70 + 3) :=
  (C37_div_partial honest_accepted P_big (i := 5) (by decide) (by decide +kernel) (by decide +kernel)).trans (by decide +kernel)
example : num (mkTable honestRows 9) OUTPUT_REGISTER = 0 :=
  (C38_mulmod honest_accepted P_big (i := 9) (by decide) (by decide +kernel)).trans (by decide +kernel)
example : num (mkTable honestRows 11) OUTPUT_REGISTER = (2 ^ 256 - 1) * (2 ^ 256 - 2) % bn254Base :=
  (C38_mulfp254 honest_accepted P_big (i := 11) (by decide) (by decide +kernel)).trans (by decide +kernel)
example : num (mkTable honestRows 13) OUTPUT_REGISTER = 0xAB :=
  (C39_byte honest_accepted P_big (i := 13) (by decide) (by decide +kernel)).trans (by decide +kernel)
example : num (mkTable honestRows 14) OUTPUT_REGISTER = (2 ^ 255 + 3) * 2 ^ 8 % 2 ^ 256 :=
  (C40_shl honest_accepted P_big (i := 14) (s := 8) (by decide) (by decide +kernel) (by decide +kernel)).trans (by decide +kernel)
example : num (mkTable honestRows 15) OUTPUT_REGISTER = (2 ^ 255 + 3) / 2 ^ 8 :=
  (C40_shr_partial honest_accepted P_big (i := 15) (s := 8) (by decide) (by decide +kernel) (by decide +kernel)).trans (by decide +kernel)

end Verif.Stark.Arith
