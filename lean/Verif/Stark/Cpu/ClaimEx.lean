import Verif.Stark.Cpu.Claim

/-! C95: examples and violations. -/

namespace Verif.Stark.Cpu

/-- A memory with one element `v` at the bottom of the stack of context 0, and the shift table. -/
def memOf (v : ℕ) : Mem := fun x => if x = (0, (SEG_STACK : F), 0) then v else if x.1 = 0 ∧ x.2.1 = (SEG_SHIFT_TABLE : F) ∧ x.2.2.val < 256 then 2 ^ x.2.2.val else 0

theorem memOf_stack (v : ℕ) : memOf v (0, (SEG_STACK : F), 0) = v := if_pos rfl

theorem memOf_words {v : ℕ} (hv : v < 2 ^ 256) (x : F × F × F) : memOf v x < 2 ^ 256 := by
  unfold memOf
  split
  · exact hv
  · split
    · rename_i h
      exact Nat.pow_lt_pow_right (by decide) h.2.2
    · decide

theorem memOf_shift (v : ℕ) : ShiftTable (memOf v) := by
  intro a ha
  have hs : ((SEG_SHIFT_TABLE : ℕ) : F) ≠ ((SEG_STACK : ℕ) : F) := by decide +kernel
  have hval : ((a : ℕ) : F).val = a := by
    rw [ZMod.val_natCast]
    exact Nat.mod_eq_of_lt (lt_trans ha (by decide +kernel))
  unfold memOf
  rw [if_neg (fun e => hs (Prod.mk.inj (Prod.mk.inj e).2).1)]
  simp only [hval, true_and]

/-- ADD of `2^256 - 1` and 5. -/
def addRows : List (List (ℕ × ℕ)) :=
  [[(PC, 99), (STACK_LEN, 2), (KERNEL_MODE, 1), (BINARY, 1), (CLOCK, 1)] ++ opBits 0x01 ++ vals 0 (2 ^ 256 - 1) ++ vals 1 5 ++ readStack 1 0,
   padRow 2 ++ [(STACK_LEN, 1), (GAS, 3)] ++ vals 0 4]

theorem add_accepted : Accepted labels 2 (mkTable addRows) := mkTable_accepted (rows := addRows) (by decide +kernel)

theorem words_of {m : ℕ} {A : ℕ → Row F} {o a b c out j : ℕ} (hj : j < m) (h : Arith.ctlFilter (A j) = 1) (ho : Arith.ctlOpcode (A j) = (o : F)) (ho' : o < 256)
    (wa : Arith.Words (A j) Arith.INPUT_REGISTER_0 a) (wb : Arith.Words (A j) Arith.INPUT_REGISTER_1 b) (wc : Arith.Words (A j) Arith.INPUT_REGISTER_2 c)
    (wo : Arith.Words (A j) Arith.OUTPUT_REGISTER out) : Arith.Exports m A o a b c out := ⟨j, hj, h, ho, ho', wa, wb, wc, wo⟩

theorem add_link : ArithLinked 2 (mkTable addRows) 65536 (Arith.mkTable Arith.honestRows) := by
  intro i hi hf
  have hi : i = 0 ∨ i = 1 := by omega
  rcases hi with rfl | rfl
  · refine ⟨0x01, 2 ^ 256 - 1, 5, 0, 4, words_of (j := 0) (by decide) (by decide +kernel) (by decide +kernel) (by decide) ⟨by decide +kernel, by decide +kernel⟩ ⟨by decide +kernel, by decide +kernel⟩
      ⟨by decide +kernel, by decide +kernel⟩ ⟨by decide +kernel, by decide +kernel⟩, by decide +kernel, holds_of (by decide) (by decide +kernel), holds_of (by decide) (by decide +kernel),
      holds_of (by decide) (by decide +kernel), holds_of (by decide) (by decide +kernel)⟩
  · exact absurd hf (by decide +kernel)

/-- The tables of the example. -/
def addSystem : System labels 2 (mkTable addRows) where
  m := 65536
  A := Arith.mkTable Arith.honestRows
  m' := 0
  B := fun _ _ => 0
  cpu := add_accepted
  arith := Arith.honest_accepted
  small := Arith.P_big
  arithLink := add_link
  logic := fun i hi => absurd hi (by omega)
  logicLink := no_logic (by decide +kernel)

theorem add_executes : Executes (mkTable addRows 0) (mkTable addRows 1) 0x01 (memOf 5) (memOf 5) [2 ^ 256 - 1, 5] where
  valid := ⟨BINARY, by decide, by decide +kernel, by decide +kernel⟩
  op := by decide +kernel
  words := memOf_words (by decide)
  shift := memOf_shift 5
  stack := ⟨by decide +kernel, fun a ha => by
    obtain rfl : 2 ^ 256 - 1 = a := by simpa using ha
    exact holds_of (by decide) (by decide +kernel), ⟨by
      have : mkTable addRows 0 CONTEXT = 0 := by decide +kernel
      rw [this]
      exact memOf_stack 5, trivial⟩⟩
  enough := by decide
  fits := by decide +kernel
  pc := by decide +kernel
  ctx := by decide +kernel
  store := fun e => absurd e (by decide)
  runs := by
    have h1 : ReadsAt (mkTable addRows 0) 1 0 SEG_STACK 0 := by unfold ReadsAt; decide +kernel
    unfold rowOps
    rw [gp_read h1, gp_none (show mkTable addRows 0 (USED 2) = 0 by decide +kernel), partial_none (show mkTable addRows 0 P_USED = 0 by decide +kernel),
      gp_none (show mkTable addRows 1 (USED 0) = 0 by decide +kernel)]
    refine runs_read.2 ⟨?_, rfl⟩
    rw [memOf_stack]
    decide +kernel

/-- The hypotheses of `C95_machine_partial` are met: the sum is 4. -/
example : ∃ S', StackSpec 0x01 99 0 (memOf 5) [2 ^ 256 - 1, 5] S' ∧ OnStack (memOf 5) (mkTable addRows 1) S' ∧ S' = [4] := by
  obtain ⟨⟨S', h1, h2, _⟩, _⟩ := C95_machine_partial addSystem (i := 0) (by decide) (o := 0x01) (by decide) add_executes
    ⟨by decide +kernel, by decide +kernel, by decide, by decide, by decide, by decide, by decide, fun e => absurd e (by decide)⟩
    ⟨Arith.honest_no_impersonation, by decide, by decide, by decide⟩
  have e1 : (mkTable addRows 0 PC).val = 99 := by decide +kernel
  have e2 : (mkTable addRows 0 CONTEXT).val = 0 := by decide +kernel
  rw [e1, e2] at h1
  obtain ⟨a, b, R, out, hS, ho, hS'⟩ := id h1
  simp only [List.cons.injEq] at hS
  obtain ⟨rfl, rfl, rfl⟩ := hS
  have ho : out = (2 ^ 256 - 1 + 5) % 2 ^ 256 := ho
  refine ⟨S', h1, h2, ?_⟩
  rw [hS', ho]
  decide

/-! ### A left shift by 2^32 -/

/-- The row of the left shift by 8 of the honest table, with the displacement `2^32` in place of 8: its constraints do not use it. -/
def shlArith : List (List ℕ) :=
  [[0, 0, 0, 0, 0, 0, 0, 0, 0, 0, 0, 0, 0, 0, 1, 0, 0, 0, 0, 0, 1, 0, 0, 0, 0, 0, 0, 0, 0, 0, 0, 0, 0, 0, 3, 0, 0, 0, 0, 0, 0, 0, 0, 0, 0, 0, 0, 0, 0, 32768, 256, 0, 0, 0, 0, 0, 0, 0, 0, 0, 0, 0, 0, 0, 0, 0, 768, 0, 0, 0, 0, 0, 0, 0, 0, 0, 0, 0, 0, 0, 0, 0, 0, 0, 0, 0, 0, 0, 0, 0, 0, 0, 0, 0, 0, 0, 0, 65408, 16, 16, 16, 16, 16, 16, 16, 16, 16, 16, 16, 16, 16, 16, 16, 15]]

theorem shlArith_accepted : Arith.Accepted 65536 (Arith.mkTable shlArith) := by
  refine Arith.mkTable_accepted (fun i hi => ?_) (by decide)
  have hi : i < 1 := hi
  interval_cases i
  decide +kernel

/-- SHL by `2^32` of `2^255 + 3`: the factor is not read and is 256. -/
def shlRows : List (List (ℕ × ℕ)) :=
  [[(PC, 99), (STACK_LEN, 2), (KERNEL_MODE, 1), (SHIFT, 1), (CLOCK, 1), (HIGH_LIMB_SUM_INV, 1), (ADDR_SEGMENT 2, SEG_SHIFT_TABLE)] ++ opBits 0x1b ++
     vals 0 (2 ^ 32) ++ vals 1 (2 ^ 255 + 3) ++ readStack 1 0 ++ vals 2 256,
   padRow 2 ++ [(STACK_LEN, 1), (GAS, 3)] ++ vals 0 768]

theorem shl_accepted : Accepted labels 2 (mkTable shlRows) := mkTable_accepted (rows := shlRows) (by decide +kernel)

theorem shl_link : ArithLinked 2 (mkTable shlRows) 65536 (Arith.mkTable shlArith) := by
  intro i hi hf
  have hi : i = 0 ∨ i = 1 := by omega
  rcases hi with rfl | rfl
  · refine ⟨0x1b, 2 ^ 32, 2 ^ 255 + 3, 256, 768, words_of (j := 0) (by decide) (by decide +kernel) (by decide +kernel) (by decide) ⟨by decide +kernel, by decide +kernel⟩ ⟨by decide +kernel, by decide +kernel⟩
      ⟨by decide +kernel, by decide +kernel⟩ ⟨by decide +kernel, by decide +kernel⟩, by decide +kernel, holds_of (by decide) (by decide +kernel), holds_of (by decide) (by decide +kernel),
      holds_of (by decide) (by decide +kernel), holds_of (by decide) (by decide +kernel)⟩
  · exact absurd hf (by decide +kernel)

def shlSystem : System labels 2 (mkTable shlRows) where
  m := 65536
  A := Arith.mkTable shlArith
  m' := 0
  B := fun _ _ => 0
  cpu := shl_accepted
  arith := shlArith_accepted
  small := Arith.P_big
  arithLink := shl_link
  logic := fun i hi => absurd hi (by omega)
  logicLink := no_logic (by decide +kernel)

theorem shl_executes : Executes (mkTable shlRows 0) (mkTable shlRows 1) 0x1b (memOf (2 ^ 255 + 3)) (memOf (2 ^ 255 + 3)) [2 ^ 32, 2 ^ 255 + 3] where
  valid := ⟨SHIFT, by decide, by decide +kernel, by decide +kernel⟩
  op := by decide +kernel
  words := memOf_words (by decide)
  shift := memOf_shift _
  stack := ⟨by decide +kernel, fun a ha => by
    obtain rfl : 2 ^ 32 = a := by simpa using ha
    exact holds_of (by decide) (by decide +kernel), ⟨by
      have : mkTable shlRows 0 CONTEXT = 0 := by decide +kernel
      rw [this]
      exact memOf_stack _, trivial⟩⟩
  enough := by decide
  fits := by decide +kernel
  pc := by decide +kernel
  ctx := by decide +kernel
  store := fun e => absurd e (by decide)
  runs := by
    have h1 : ReadsAt (mkTable shlRows 0) 1 0 SEG_STACK 0 := by unfold ReadsAt; decide +kernel
    unfold rowOps
    rw [gp_read h1, gp_none (show mkTable shlRows 0 (USED 2) = 0 by decide +kernel), partial_none (show mkTable shlRows 0 P_USED = 0 by decide +kernel),
      gp_none (show mkTable shlRows 1 (USED 0) = 0 by decide +kernel)]
    refine runs_read.2 ⟨?_, rfl⟩
    rw [memOf_stack]
    decide +kernel

/-- C95 fails: the result of a shift by `2^32` or more is free (of the multiples, quotients of the value). Here `2^255 + 3` shifted left by `2^32` is 768. -/
theorem C95_violated : ¬ C95_statement := by
  intro h
  obtain ⟨S', h1, h2, _⟩ := h labels 2 _ shlSystem 0 (by decide) 0x1b (by decide) _ _ _ shl_executes
  obtain ⟨a, b, R, out, hS, ho, hS'⟩ := h1
  simp only [List.cons.injEq] at hS
  obtain ⟨rfl, rfl, rfl⟩ := hS
  have ho : out = if 2 ^ 32 < 256 then (2 ^ 255 + 3) * 2 ^ 2 ^ 32 % 2 ^ 256 else 0 := ho rfl
  rw [if_neg (by decide)] at ho
  have := (h2.top out (by rw [hS']; rfl)).2 0 (by decide)
  rw [ho] at this
  revert this
  decide +kernel

end Verif.Stark.Cpu
