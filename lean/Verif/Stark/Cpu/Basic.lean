import Verif.Stark.Cpu.Table

/-! Reading the constraints of the CPU table: rows, flags, opcodes. -/

namespace Verif.Stark.Cpu

open Finset Verif.Stark.Arith

/-- Two consecutive rows satisfy the constraints that apply inside the table. -/
def Step (L : Labels) (lv nv : Row F) : Prop := ∀ c ∈ evalCpu L lv nv, c.on = .always ∨ c.on = .transition → c.val = 0

/-- A row satisfies the constraints that apply to every row. -/
def Always (L : Labels) (lv nv : Row F) : Prop := ∀ c ∈ evalCpu L lv nv, c.on = .always → c.val = 0

theorem Step.always {L : Labels} {lv nv : Row F} (h : Step L lv nv) : Always L lv nv := fun c hc e => h c hc (.inl e)

theorem Accepted.step {L : Labels} {n : ℕ} {T : ℕ → Row F} (h : Accepted L n T) {i : ℕ} (hi : i + 1 < n) : Step L (T i) (T (i + 1)) := by
  intro c hc hon
  refine h i (by omega) c (by rw [Nat.mod_eq_of_lt hi]; exact hc) ?_
  rcases hon with e | e <;> rw [e] <;> simp only [When.applies]
  omega

theorem Accepted.always {L : Labels} {n : ℕ} {T : ℕ → Row F} (h : Accepted L n T) {i : ℕ} (hi : i < n) :
    Always L (T i) (T ((i + 1) % n)) := by
  intro c hc hon
  exact h i hi c hc (by rw [hon]; trivial)

theorem mem_group {L : Labels} {lv nv : Row F} {g : List (Constr F)} (hg : g ∈ groups L lv nv) {c : Constr F} (hc : c ∈ g) : c ∈ evalCpu L lv nv :=
  List.mem_flatten.2 ⟨g, hg, hc⟩

theorem Step.get {L : Labels} {lv nv : Row F} (h : Step L lv nv) {g : List (Constr F)} (hg : g ∈ groups L lv nv) {w : When} {v : F}
    (hc : (⟨w, v⟩ : Constr F) ∈ g) (hw : w = .always ∨ w = .transition) : v = 0 :=
  h _ (mem_group hg hc) hw

theorem Always.get {L : Labels} {lv nv : Row F} (h : Always L lv nv) {g : List (Constr F)} (hg : g ∈ groups L lv nv) {v : F}
    (hc : (⟨.always, v⟩ : Constr F) ∈ g) : v = 0 :=
  h _ (mem_group hg hc) rfl

theorem bit_of {x : F} (h : x * (x - 1) = 0) : x = 0 ∨ x = 1 := by
  rcases mul_eq_zero.1 h with h | h
  · exact .inl h
  · exact .inr (sub_eq_zero.1 h)

section
variable {L : Labels} {lv nv : Row F}

theorem decode_mem : evalDecode lv ∈ groups L lv nv := by simp [groups]
theorem halt_mem : evalHalt L lv nv ∈ groups L lv nv := by simp [groups]
theorem sys_mem : evalSyscalls L lv nv ∈ groups L lv nv := by simp [groups]
theorem stack_mem : evalStack lv nv ∈ groups L lv nv := by simp [groups]
theorem flow_mem : evalControlFlow L lv nv ∈ groups L lv nv := by simp [groups]
theorem context_mem : evalContext lv nv ∈ groups L lv nv := by simp [groups]
theorem gas_mem : evalGas lv nv ∈ groups L lv nv := by simp [groups]
theorem jumps_mem : evalExitKernel lv nv ++ evalJumps lv nv ∈ groups L lv nv := by simp [groups]
theorem membus_mem : evalMembus lv ∈ groups L lv nv := by simp [groups]
theorem memio_mem : evalLoad lv nv ++ evalStore lv nv ∈ groups L lv nv := by simp [groups]
theorem logic_mem : evalNot lv nv ++ evalEqIszero lv nv ∈ groups L lv nv := by simp [groups]
theorem dup_mem : evalDupSwap lv nv ∈ groups L lv nv := by simp [groups]
theorem pc_mem : evalPc lv nv ∈ groups L lv nv := by simp [groups]
theorem push0_mem : evalPush0 lv nv ∈ groups L lv nv := by simp [groups]
theorem clock_mem : evalClock lv nv ∈ groups L lv nv := by simp [groups]
theorem shift_mem : evalShift lv ∈ groups L lv nv := by simp [groups]
theorem unpack_mem : evalByteUnpacking lv nv ∈ groups L lv nv := by simp [groups]
theorem fp_mem : evalModFp254 lv ∈ groups L lv nv := by simp [groups]

/-! ### Bits -/

theorem Always.mode (h : Always L lv nv) : lv KERNEL_MODE = 0 ∨ lv KERNEL_MODE = 1 :=
  bit_of (h.get decode_mem (by unfold evalDecode; simp))

theorem Always.bit (h : Always L lv nv) {i : ℕ} (hi : i < 8) : lv (BIT i) = 0 ∨ lv (BIT i) = 1 := by
  refine bit_of (h.get decode_mem ?_)
  unfold evalDecode
  simp only [List.mem_append]
  exact .inl (.inl (.inl (.inl (.inl (.inr (List.mem_map.2 ⟨i, List.mem_range.2 hi, rfl⟩))))))

theorem Always.flag (h : Always L lv nv) {f : ℕ} (hf : f ∈ flags) : lv f = 0 ∨ lv f = 1 := by
  have h1 : ∀ o ∈ opcodes, lv o.2.2.2 = 0 ∨ lv o.2.2.2 = 1 := by
    intro o ho
    refine bit_of (h.get decode_mem ?_)
    unfold evalDecode
    simp only [List.mem_append]
    exact .inl (.inl (.inl (.inl (.inr (List.mem_map.2 ⟨o, ho, rfl⟩)))))
  have h2 : ∀ g ∈ combinedOpcodes, lv g = 0 ∨ lv g = 1 := by
    intro g hg
    refine bit_of (h.get decode_mem ?_)
    unfold evalDecode
    simp only [List.mem_append]
    exact .inl (.inl (.inl (.inr (List.mem_map.2 ⟨g, hg, rfl⟩))))
  have h3 : lv SYSCALL = 0 ∨ lv SYSCALL = 1 := bit_of (h.get sys_mem (by unfold evalSyscalls; simp))
  have h4 : lv EXCEPTION = 0 ∨ lv EXCEPTION = 1 := bit_of (h.get sys_mem (by unfold evalSyscalls; simp))
  have hcases : (∃ o ∈ opcodes, o.2.2.2 = f) ∨ f ∈ combinedOpcodes ∨ f = SYSCALL ∨ f = EXCEPTION := by
    revert f; decide
  rcases hcases with ⟨o, ho, rfl⟩ | hg | rfl | rfl
  · exact h1 o ho
  · exact h2 f hg
  · exact h3
  · exact h4

theorem cycle_sum (r : Row F) : cycle r = ∑ k ∈ range 18, r (6 + k) := by
  simp [cycle, flags, sum_range_succ]
  ring

theorem Always.cycle (h : Always L lv nv) : cycle lv = 0 ∨ cycle lv = 1 := by
  have := h.get halt_mem (v := (1 - Cpu.cycle lv) * (1 - Cpu.cycle lv - 1)) (by unfold evalHalt; simp)
  rcases bit_of this with h | h
  · exact .inr (sub_eq_zero.1 h).symm
  · exact .inl (by linear_combination -h)

theorem mem_flags {f : ℕ} : f ∈ flags ↔ 6 ≤ f ∧ f < 24 := by
  constructor
  · revert f; decide
  · rintro ⟨h1, h2⟩
    have : ∀ f < 24, 6 ≤ f → f ∈ flags := by decide
    exact this f h2 h1

/-- The flags exclude each other. -/
theorem Always.only (h : Always L lv nv) {f : ℕ} (hf : f ∈ flags) (h1 : lv f = 1) : ∀ g ∈ flags, g ≠ f → lv g = 0 := by
  have hf' := mem_flags.1 hf
  have := only_of_sum (b := fun k => lv (6 + k)) (m := 18) (by decide) (fun k hk => h.flag (mem_flags.2 ⟨by omega, by omega⟩))
    (by rw [← cycle_sum]; exact h.cycle) (f := f - 6) (by omega) (by show lv (6 + (f - 6)) = 1; rw [Nat.add_sub_cancel' hf'.1]; exact h1)
  intro g hg hne
  have hg' := mem_flags.1 hg
  have := this (g - 6) (by omega) (by omega)
  rwa [Nat.add_sub_cancel' hg'.1] at this

theorem Always.zero (h : Always L lv nv) {f : ℕ} (h1 : lv f = 1) (hf : f ∈ flags) (g : ℕ) (hg : g ∈ flags) (hne : g ≠ f) : lv g = 0 := h.only hf h1 g hg hne

theorem Always.cycle_one (h : Always L lv nv) {f : ℕ} (hf : f ∈ flags) (h1 : lv f = 1) : Cpu.cycle lv = 1 := by
  have hf' := mem_flags.1 hf
  rw [cycle_sum, sum_eq_single (f - 6)]
  · rw [Nat.add_sub_cancel' hf'.1]; exact h1
  · intro k hk hne
    have := mem_range.1 hk
    exact h.only hf h1 _ (mem_flags.2 ⟨by omega, by omega⟩) (by omega)
  · intro hno
    exact absurd (mem_range.2 (by omega)) hno

/-- A row is a padding row or has a flag set. -/
theorem Always.pad_or (h : Always L lv nv) : (Cpu.cycle lv = 0 ∧ ∀ f ∈ flags, lv f = 0) ∨ ∃ f ∈ flags, lv f = 1 := by
  by_cases hex : ∃ f ∈ flags, lv f = 1
  · exact .inr hex
  · push Not at hex
    have hz : ∀ f ∈ flags, lv f = 0 := fun f hf => (h.flag hf).resolve_right (hex f hf)
    refine .inl ⟨?_, hz⟩
    rw [cycle_sum]
    exact sum_eq_zero (fun k hk => hz _ (mem_flags.2 ⟨by omega, by have := mem_range.1 hk; omega⟩))

/-! ### The opcode -/

/-- The opcode of a row as a number. -/
def op (r : Row F) : ℕ := (opcode r).val

/-- The bits of a number as field elements. -/
def fbit (o i : ℕ) : F := if o.testBit i then 1 else 0

theorem fbit_sum : ∀ o < 256, ((List.range' 0 8).map (fun i => fbit o i * 2 ^ i)).sum = (o : F) := by decide +kernel

theorem Always.op_bits (h : Always L lv nv) : op lv < 256 ∧ (op lv : F) = opcode lv ∧ ∀ i < 8, lv (BIT i) = fbit (op lv) i := by
  have hb : ∀ i < 8, ∃ b : Bool, lv (BIT i) = if b then 1 else 0 := by
    intro i hi
    rcases h.bit hi with e | e
    · exact ⟨false, e⟩
    · exact ⟨true, e⟩
  choose! b hb using hb
  have key : ∀ b0 b1 b2 b3 b4 b5 b6 b7 : Bool, (fun o => o < 256 ∧ ∀ i < 8, o.testBit i = [b0, b1, b2, b3, b4, b5, b6, b7].getD i false)
      (b0.toNat + 2 * b1.toNat + 4 * b2.toNat + 8 * b3.toNat + 16 * b4.toNat + 32 * b5.toNat + 64 * b6.toNat + 128 * b7.toNat) := by
    decide +kernel
  obtain ⟨o, ho, hbits⟩ : ∃ o, o < 256 ∧ ∀ i < 8, o.testBit i = [b 0, b 1, b 2, b 3, b 4, b 5, b 6, b 7].getD i false := ⟨_, key (b 0) (b 1) (b 2) (b 3) (b 4) (b 5) (b 6) (b 7)⟩
  have hf : ∀ i < 8, lv (BIT i) = fbit o i := by
    intro i hi
    rw [hb i hi]
    unfold fbit
    have : b i = o.testBit i := by
      rw [hbits i hi]
      interval_cases i <;> rfl
    rw [this]
  have hop : opcode lv = (o : F) := by
    rw [← fbit_sum o ho]
    unfold opcode bitsSum
    refine congrArg List.sum (List.map_congr_left (fun i hi => ?_))
    have : i < 8 := by have := List.mem_range'_1.1 hi; omega
    rw [hf i this]
  have hval : op lv = o := by
    unfold op
    rw [hop, ZMod.val_natCast, Nat.mod_eq_of_lt (by unfold P; omega)]
  rw [hval]
  exact ⟨ho, hop.symm, hf⟩

theorem bitsSum_eq {o : ℕ} (hf : ∀ i < 8, lv (BIT i) = fbit o i) {lo hi : ℕ} (h : hi ≤ 8) :
    bitsSum lv lo hi = ((List.range' lo (hi - lo)).map (fun i => fbit o i * 2 ^ i)).sum := by
  unfold bitsSum
  refine congrArg List.sum (List.map_congr_left (fun i hi' => ?_))
  rw [hf i (by have := List.mem_range'_1.1 hi'; omega)]

theorem mismatch_eq {o : ℕ} (hf : ∀ i < 8, lv (BIT i) = fbit o i) {oc len : ℕ} :
    mismatch lv oc len = ((List.range' len (8 - len)).map (fun i => if oc.testBit i then 1 - fbit o i else fbit o i)).sum := by
  unfold mismatch
  refine congrArg List.sum (List.map_congr_left (fun i hi' => ?_))
  rw [hf i (by have := List.mem_range'_1.1 hi'; omega)]

end

end Verif.Stark.Cpu
