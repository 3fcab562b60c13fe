import Verif.Stark.Cpu.One
import Verif.Stark.Cpu.DecodeEx

/-! C92: the program counter and the mode after every instruction, and the registers after system calls and exceptions. -/

namespace Verif.Stark.Cpu

variable {L : Labels} {lv nv : Row F}

theorem sum_zero {v : ℕ → F} : ∀ {l : List ℕ}, (∀ g ∈ l, v g = 0) → (l.map v).sum = 0
  | [], _ => rfl
  | x :: l, h => by
    rw [List.map_cons, List.sum_cons, h x (by simp), zero_add]
    exact sum_zero (fun g hg => h g (List.mem_cons_of_mem _ hg))

theorem sum_one {v : ℕ → F} {f : ℕ} : ∀ {l : List ℕ}, l.Nodup → f ∈ l → (∀ g ∈ l, g ≠ f → v g = 0) → (l.map v).sum = v f
  | [], _, hf, _ => by simp at hf
  | x :: l, hn, hf, h => by
    rw [List.map_cons, List.sum_cons]
    obtain ⟨h1, h2⟩ := List.nodup_cons.1 hn
    by_cases e : f = x
    · subst e
      rw [sum_zero (fun g hg => h g (List.mem_cons_of_mem _ hg) (fun e => h1 (e ▸ hg))), add_zero]
    · rw [h x (by simp) (fun e' => e e'.symm), zero_add]
      exact sum_one h2 ((List.mem_cons.1 hf).resolve_left e) (fun g hg => h g (List.mem_cons_of_mem _ hg))

theorem native_flags : ∀ f ∈ nativeInstructions, f ∈ flags := by decide

theorem Step.native (h : Step L lv nv) {f : ℕ} (hf : f ∈ nativeInstructions) (h1 : lv f = 1) :
    nv PC = lv PC + 1 ∧ nv KERNEL_MODE = lv KERNEL_MODE := by
  have hs : (nativeInstructions.map (fun f => lv f)).sum = 1 := by
    rw [← h1]
    exact sum_one (by decide) hf (fun g hg hne => h.only (native_flags f hf) h1 g (native_flags g hg) hne)
  have g1 := h.get flow_mem (w := .transition) (v := (nativeInstructions.map (fun f => lv f)).sum * (lv PC - nv PC + 1)) (by simp [evalControlFlow]) (.inr rfl)
  have g2 := h.get flow_mem (w := .transition) (v := (nativeInstructions.map (fun f => lv f)).sum * (lv KERNEL_MODE - nv KERNEL_MODE)) (by simp [evalControlFlow]) (.inr rfl)
  rw [hs, one_mul] at g1 g2
  exact ⟨by linear_combination -g1, by linear_combination -g2⟩

theorem Step.proverInput (h : Step L lv nv) (h1 : lv PUSH_PROVER = 1) (hb : (op lv).testBit 7 = true) :
    nv PC = lv PC + 1 ∧ nv KERNEL_MODE = lv KERNEL_MODE := by
  have hb7 := h.always.op_bits.2.2 7 (by decide)
  unfold fbit at hb7
  rw [hb] at hb7
  have g1 := h.get flow_mem (w := .transition) (v := lv PUSH_PROVER * lv (BIT 7) * (lv PC - nv PC + 1)) (by simp [evalControlFlow]) (.inr rfl)
  have g2 := h.get flow_mem (w := .transition) (v := lv PUSH_PROVER * lv (BIT 7) * (lv KERNEL_MODE - nv KERNEL_MODE)) (by simp [evalControlFlow]) (.inr rfl)
  rw [h1, hb7, if_pos rfl, one_mul, one_mul] at g1 g2
  exact ⟨by linear_combination -g1, by linear_combination -g2⟩

/-! ### Jumps -/

theorem limbs_sum {r : Row F} {c a : ℕ} (h : Holds r c a) : ∀ {l : List ℕ}, (∀ k ∈ l, k < 8) →
    (l.map (fun k => r (VALUE c k))).sum = (((l.map (fun k => a / 2 ^ (32 * k) % 2 ^ 32)).sum : ℕ) : F)
  | [], _ => by simp
  | x :: l, hl => by
    simp only [List.map_cons, List.sum_cons, Nat.cast_add]
    rw [limbs_sum h (fun k hk => hl k (List.mem_cons_of_mem _ hk)), h.2 x (hl x (by simp))]

theorem limbs_lt (a : ℕ) : ∀ l : List ℕ, (l.map (fun k => a / 2 ^ (32 * k) % 2 ^ 32)).sum ≤ l.length * 2 ^ 32
  | [] => by simp
  | x :: l => by
    simp only [List.map_cons, List.sum_cons, List.length_cons]
    have := limbs_lt a l
    have h2 := Nat.mod_lt (a / 2 ^ (32 * x)) (show 0 < 2 ^ 32 by decide)
    omega

theorem limbs_zero {r : Row F} {c a : ℕ} (h : Holds r c a) {l : List ℕ} (hl : ∀ k ∈ l, k < 8) (hlen : l.length ≤ 8)
    (hz : (l.map (fun k => r (VALUE c k))).sum = 0) : ∀ k ∈ l, a / 2 ^ (32 * k) % 2 ^ 32 = 0 := by
  rw [limbs_sum h hl] at hz
  have hle := limbs_lt a l
  have : (l.map (fun k => a / 2 ^ (32 * k) % 2 ^ 32)).sum = 0 := by
    refine Arith.lift_nat (b := 0) (by rw [hz, Nat.cast_zero]) (lt_of_le_of_lt hle ?_) (by decide)
    refine lt_of_le_of_lt (Nat.mul_le_mul_right _ hlen) (by decide)
  intro k hk
  exact Nat.le_zero.1 (this ▸ List.le_sum_of_mem (List.mem_map.2 ⟨k, hk, rfl⟩))

theorem small_of {a : ℕ} (ha : a < 2 ^ 256) : ∀ d ≤ 8, (∀ k, 8 - d ≤ k → k < 8 → a / 2 ^ (32 * k) % 2 ^ 32 = 0) → a < 2 ^ (32 * (8 - d))
  | 0, _, _ => ha
  | d + 1, hd, h => by
    have ih := small_of ha d (by omega) (fun k h1 h2 => h k (by omega) h2)
    have h0 := h (8 - (d + 1)) (le_refl _) (by omega)
    have e : 32 * (8 - d) = 32 * (8 - (d + 1)) + 32 := by omega
    rw [e, Nat.pow_add] at ih
    rw [Nat.mod_eq_of_lt (Nat.div_lt_of_lt_mul ih)] at h0
    exact (Nat.div_eq_zero_iff.1 h0).resolve_left (by positivity)

/-- The destination of a jump that is taken. -/
theorem Step.jumped (h : Step L lv nv) (h1 : lv JUMPS = 1) (hs : lv SHOULD_JUMP = 1) {d : ℕ} (hd : Holds lv 0 d) : d < 2 ^ 32 ∧ nv PC = (d : F) := by
  have g1 := h.get jumps_mem (w := .transition) (v := lv JUMPS * lv SHOULD_JUMP * (nv PC - lv (VALUE 0 0))) (by simp [evalJumps]) (.inr rfl)
  have g2 := h.get jumps_mem (w := .always) (v := lv JUMPS * lv SHOULD_JUMP * ((List.range' 1 7).map (fun k => lv (VALUE 0 k))).sum) (by simp [evalJumps]) (.inl rfl)
  rw [h1, hs, one_mul, one_mul] at g1 g2
  have hz := limbs_zero hd (l := List.range' 1 7) (by decide) (by decide) g2
  have hlt := small_of hd.1 7 (by decide) (fun k k1 k2 => hz k (by rw [List.mem_range'_1]; omega))
  refine ⟨hlt, ?_⟩
  rw [sub_eq_zero.1 g1, hd.2 0 (by decide)]
  congr 1
  simp only [Nat.mul_zero, Nat.pow_zero, Nat.div_one]
  exact Nat.mod_eq_of_lt hlt

theorem Step.jump (h : Step L lv nv) (h1 : lv JUMPS = 1) (ho : op lv = 0x56) {d : ℕ} (hd : Holds lv 0 d) : d < 2 ^ 32 ∧ nv PC = (d : F) := by
  have hb := h.always.op_bits.2.2 0 (by decide)
  rw [ho] at hb
  have hb0 : lv (BIT 0) = 0 := hb
  refine h.jumped h1 ?_ hd
  have c0 := h.get jumps_mem (w := .always) (v := lv JUMPS * (1 - lv (BIT 0)) * (lv (VALUE 1 0) - 1)) (by simp [evalJumps]) (.inl rfl)
  have cs : ∀ k ∈ List.range' 1 7, lv JUMPS * (1 - lv (BIT 0)) * lv (VALUE 1 k) = 0 := by
    intro k hk
    refine h.get jumps_mem (w := .always) ?_ (.inl rfl)
    refine List.mem_append_right _ ?_
    unfold evalJumps
    exact List.mem_append_left _ (List.mem_append_right _ (List.mem_map.2 ⟨k, hk, rfl⟩))
  rw [h1, hb0] at c0
  have g := h.get jumps_mem (w := .always) (v := lv JUMPS * (lv SHOULD_JUMP - 1) * ((List.range 8).map (fun k => lv (VALUE 1 k))).sum) (by simp [evalJumps]) (.inl rfl)
  have e : ((List.range 8).map (fun k => lv (VALUE 1 k))).sum = lv (VALUE 1 0) + ((List.range' 1 7).map (fun k => lv (VALUE 1 k))).sum := rfl
  rw [e, sum_zero (v := fun k => lv (VALUE 1 k)) (fun k hk => by have := cs k hk; rw [h1, hb0] at this; simpa using this), h1] at g
  have : lv (VALUE 1 0) = 1 := by linear_combination c0
  rw [this] at g
  linear_combination g

theorem Step.jumpi (h : Step L lv nv) (h1 : lv JUMPS = 1) {d c : ℕ} (hd : Holds lv 0 d) (hc : Holds lv 1 c) :
    if c = 0 then nv PC = lv PC + 1 else d < 2 ^ 32 ∧ nv PC = (d : F) := by
  have g := h.get jumps_mem (w := .always) (v := lv JUMPS * (lv SHOULD_JUMP - 1) * ((List.range 8).map (fun k => lv (VALUE 1 k))).sum) (by simp [evalJumps]) (.inl rfl)
  have g' := h.get jumps_mem (w := .always) (v := lv JUMPS * (lv COND_SUM_PINV * ((List.range 8).map (fun k => lv (VALUE 1 k))).sum - lv SHOULD_JUMP)) (by simp [evalJumps]) (.inl rfl)
  rw [h1, one_mul] at g g'
  split
  · rename_i e
    subst e
    have hz : ((List.range 8).map (fun k => lv (VALUE 1 k))).sum = 0 := by
      refine sum_zero (v := fun k => lv (VALUE 1 k)) (fun k hk => ?_)
      rw [hc.2 k (List.mem_range.1 hk)]
      simp
    rw [hz, mul_zero, zero_sub, neg_eq_zero] at g'
    have g1 := h.get jumps_mem (w := .transition) (v := lv JUMPS * (lv SHOULD_JUMP - 1) * (nv PC - (lv PC + 1))) (by simp [evalJumps]) (.inr rfl)
    rw [h1, g'] at g1
    linear_combination -g1
  · rename_i hne
    refine h.jumped h1 ?_ hd
    rcases mul_eq_zero.1 g with e | e
    · exact sub_eq_zero.1 e
    · exfalso
      have hz := limbs_zero hc (l := List.range 8) (by decide) (by decide) e
      have := small_of hc.1 8 (le_refl _) (fun k _ k2 => hz k (List.mem_range.2 k2))
      exact hne (by simpa using this)

/-! ### All instructions -/

/-- The instructions whose next program counter and mode are not constrained: PUSH, MSTORE_32BYTES and MLOAD_32BYTES. -/
def freePc (o : ℕ) : Prop := (0x60 ≤ o ∧ o < 0x80) ∨ (0xc0 ≤ o ∧ o < 0xe0) ∨ o = 0xf8

instance (o : ℕ) : Decidable (freePc o) := by unfold freePc; infer_instance

theorem pc_table : ∀ e ∈ instructionSet, ∀ o ∈ e.2.1, freePc o ∨ (o ∉ [0x56, 0x57, 0xf9] ∧ pushBytes o = 0 ∧ e.1 ∈ nativeInstructions) ∨
    (o = 0xee ∧ e.1 = PUSH_PROVER) ∨ ((o = 0x56 ∨ o = 0x57) ∧ e.1 = JUMPS) ∨ (o = 0xf9 ∧ e.1 = EXIT_KERNEL) := by decide +kernel

theorem Step.pcSpec (h : Step L lv nv) {f : ℕ} (h1 : lv f = 1) {k : Bool} (hv : Valid f (op lv) k) (hp : ¬ freePc (op lv)) :
    PcSpec (op lv) lv nv ∧ (op lv ≠ 0x56 → op lv ≠ 0x57 → ModeSpec (op lv) lv nv) := by
  obtain ⟨e, he, rfl, ho, _⟩ := hv
  unfold PcSpec ModeSpec
  rcases pc_table e he _ ho with e1 | ⟨e1, e2, e3⟩ | ⟨e1, e2⟩ | ⟨e1, e2⟩ | ⟨e1, e2⟩
  · exact absurd e1 hp
  · simp only [List.mem_cons, List.not_mem_nil, or_false, not_or] at e1
    obtain ⟨n1, n2, n3⟩ := e1
    rw [if_neg n1, if_neg n2, if_neg n3, if_neg n3, e2, Nat.cast_zero, add_zero]
    exact ⟨(h.native e3 h1).1, fun _ _ => (h.native e3 h1).2⟩
  · rw [e2] at h1
    have := h.proverInput h1 (by rw [e1]; decide)
    rw [e1, if_neg (by decide), if_neg (by decide), if_neg (by decide), if_neg (by decide), show pushBytes 0xee = 0 from by decide, Nat.cast_zero,
      add_zero]
    exact ⟨this.1, fun _ _ => this.2⟩
  · rw [e2] at h1
    rcases e1 with e1 | e1
    · refine ⟨?_, fun n _ => absurd e1 n⟩
      rw [if_pos e1]
      intro d hd
      exact h.jump h1 e1 hd
    · refine ⟨?_, fun _ n => absurd e1 n⟩
      rw [if_neg (by rw [e1]; decide), if_pos e1]
      intro d c hd hc
      exact h.jumpi h1 hd hc
  · rw [e2] at h1
    have g1 := h.get jumps_mem (w := .transition) (v := lv EXIT_KERNEL * (lv (VALUE 0 0) - nv PC)) (by simp [evalExitKernel]) (.inr rfl)
    have g2 := h.get jumps_mem (w := .transition) (v := lv EXIT_KERNEL * (lv (VALUE 0 1) - nv KERNEL_MODE)) (by simp [evalExitKernel]) (.inr rfl)
    rw [e1, if_neg (by decide), if_neg (by decide), if_pos rfl, if_pos rfl]
    exact ⟨(sub_eq_zero.1 (cut h1 g1)).symm, fun _ _ => (sub_eq_zero.1 (cut h1 g2)).symm⟩

/-- C92, the part that holds: the context and the gas after every instruction are right; so is the stack length, but for MSTORE_GENERAL,
the program counter, but for PUSH, MSTORE_32BYTES and MLOAD_32BYTES, and the mode, but for these three, JUMP and JUMPI. Missing are the
exceptions (`C92_statement`), for which see `C92_violated` and what follows it. -/
theorem C92_registers_partial {n : ℕ} {T : ℕ → Row F} (h : Accepted L n T) {i : ℕ} (hi : i + 1 < n) {f : ℕ} (hf : f ∈ flags) (h1 : T i f = 1)
    (hv : Valid f (op (T i)) (kernel (T i))) :
    ContextSpec (op (T i)) (T i) (T (i + 1)) ∧ GasSpec (op (T i)) (T i) (T (i + 1)) ∧
    (op (T i) ≠ 0xfc → LenSpec (op (T i)) (T i) (T (i + 1))) ∧
    (¬ freePc (op (T i)) → PcSpec (op (T i)) (T i) (T (i + 1)) ∧
      (op (T i) ≠ 0x56 → op (T i) ≠ 0x57 → ModeSpec (op (T i)) (T i) (T (i + 1)))) :=
  have s := h.step hi
  ⟨s.contextSpec hf h1 hv, s.gasSpec h1 hv, s.lenSpec h1 hv, s.pcSpec h1 hv⟩

/-- The code of an exception. `syscalls_exceptions.rs:44-55`. -/
def excCode (r : Row F) : F := ((List.range 3).map (fun i => r (GENERAL i) * 2 ^ i)).sum

/-- C92 for system calls and exceptions: execution goes on in kernel mode at the address read from the jump table, in the same context,
with no gas used, and the new top of the stack holds the address to return to (for a system call that of the next instruction), the
mode in limb 1 and the gas in limb 6. Only the exception 6, by which the kernel stops, occurs in kernel mode; for it limb 1 is free. -/
theorem C92_syscall {n : ℕ} {T : ℕ → Row F} (h : Accepted L n T) {i : ℕ} (hi : i + 1 < n) (h1 : T i SYSCALL = 1 ∨ T i EXCEPTION = 1) :
    T (i + 1) PC = T i (VALUE 1 0) ∧ T (i + 1) KERNEL_MODE = 1 ∧ T (i + 1) CONTEXT = T i CONTEXT ∧ T (i + 1) GAS = 0 ∧
    T (i + 1) STACK_LEN = T i STACK_LEN + 1 ∧
    (∀ k, 1 ≤ k → k < 8 → T i (VALUE 1 k) = 0) ∧
    T (i + 1) (VALUE 0 0) = T i PC + T i SYSCALL ∧ (T i SYSCALL = 1 → T (i + 1) (VALUE 0 1) = T i KERNEL_MODE) ∧
    (T i EXCEPTION = 1 → excCode (T i) ≠ 6 → T i KERNEL_MODE = 0 ∧ T (i + 1) (VALUE 0 1) = 0) ∧
    T (i + 1) (VALUE 0 6) = T i GAS ∧ ∀ k, 2 ≤ k → k < 8 → k ≠ 6 → T (i + 1) (VALUE 0 k) = 0 := by
  have s := h.step hi
  generalize T (i + 1) = nv at *
  generalize T i = lv at *
  have hx : lv SYSCALL + lv EXCEPTION = 1 ∧ (lv SYSCALL = 1 ∧ lv EXCEPTION = 0 ∨ lv SYSCALL = 0 ∧ lv EXCEPTION = 1) := by
    rcases h1 with e | e
    · have := s.only (f := SYSCALL) (by decide) e EXCEPTION (by decide) (by decide)
      exact ⟨by rw [e, this, add_zero], .inl ⟨e, this⟩⟩
    · have := s.only (f := EXCEPTION) (by decide) e SYSCALL (by decide) (by decide)
      exact ⟨by rw [e, this, zero_add], .inr ⟨this, e⟩⟩
  obtain ⟨ht, hcase⟩ := hx
  have z : Zero (evalSyscalls L lv nv) := s.zero sys_mem (fun c hc => hc)
  have tr : ∀ v : F, (⟨.transition, (lv SYSCALL + lv EXCEPTION) * v⟩ : Constr F) ∈ evalSyscalls L lv nv → v = 0 := by
    intro v hv
    have := z.tr hv
    rw [ht, one_mul] at this
    exact this
  have al : ∀ v : F, (⟨.always, (lv SYSCALL + lv EXCEPTION) * v⟩ : Constr F) ∈ evalSyscalls L lv nv → v = 0 := by
    intro v hv
    have := z.alw hv
    rw [ht, one_mul] at this
    exact this
  have hlen : nv STACK_LEN = lv STACK_LEN + 1 := by
    rcases hcase with ⟨e, _⟩ | ⟨_, e⟩
    · have := one_len e (s.behavior (f := SYSCALL) (b := ⟨0, true, false⟩) (by simp [stackBehaviors]))
      simpa using this
    · have := one_len e (s.behavior (f := EXCEPTION) (b := ⟨0, true, false⟩) (by simp [stackBehaviors]))
      simpa using this
  refine ⟨sub_eq_zero.1 (tr _ (by simp [evalSyscalls])), sub_eq_zero.1 (tr _ (by simp [evalSyscalls])), ?_, tr _ (by simp [evalSyscalls]), hlen, ?_, ?_,
    ?_, ?_, sub_eq_zero.1 (al _ (by simp [evalSyscalls])), ?_⟩
  · rcases hcase with ⟨e, _⟩ | ⟨_, e⟩ <;> exact s.context (by decide) (by decide) e
  · intro k k1 k2
    refine al _ ?_
    unfold evalSyscalls
    refine List.mem_append_left _ (List.mem_append_left _ (List.mem_append_right _ (List.mem_map.2 ⟨k, ?_, rfl⟩)))
    rw [List.mem_range'_1]
    omega
  · have g1 := z.alw (v := lv SYSCALL * (nv (VALUE 0 0) - (lv PC + 1))) (by simp [evalSyscalls])
    have g2 := z.alw (v := lv EXCEPTION * (nv (VALUE 0 0) - lv PC)) (by simp [evalSyscalls])
    rcases hcase with ⟨e, e'⟩ | ⟨e, e'⟩
    · rw [e] at g1 ⊢
      linear_combination g1
    · rw [e'] at g2
      rw [e]
      linear_combination g2
  · have g1 := z.alw (v := lv SYSCALL * (nv (VALUE 0 1) - lv KERNEL_MODE)) (by simp [evalSyscalls])
    intro e
    rw [e] at g1
    linear_combination g1
  · have g1 := z.alw (v := lv EXCEPTION * (excCode lv - 6) * nv (VALUE 0 1)) (by simp [evalSyscalls, excCode])
    have g2 := z.alw (v := lv EXCEPTION * (excCode lv - 6) * lv KERNEL_MODE) (by simp [evalSyscalls, excCode])
    intro e hne
    rw [e, one_mul] at g1 g2
    exact ⟨(mul_eq_zero.1 g2).resolve_left (sub_ne_zero.2 hne), (mul_eq_zero.1 g1).resolve_left (sub_ne_zero.2 hne)⟩
  · intro k k1 k2 k6
    have : k = 2 ∨ k = 3 ∨ k = 4 ∨ k = 5 ∨ k = 7 := by omega
    rcases this with e | e | e | e | e <;> subst e <;> exact al _ (by simp [evalSyscalls])

/-! ### Violations -/

/-- In kernel mode, `PUSH1` at 7 is followed by a padding row at 100, the end of the program. -/
def pushRows : List (List (ℕ × ℕ)) :=
  [[(PC, 7), (KERNEL_MODE, 1), (PUSH_PROVER, 1), (CLOCK, 1)] ++ opBits 0x60,
   padRow 2 ++ [(STACK_LEN, 1), (GAS, 3)] ++ vals 0 12345]

theorem push_accepted : Accepted labels 2 (mkTable pushRows) := mkTable_accepted (rows := pushRows) (by decide +kernel)

/-- C92 fails: the program counter after `PUSH1` is free. Here the kernel goes to the end of its program. -/
theorem C92_violated : ¬ C92_statement := by
  intro h
  have := (h labels 2 (mkTable pushRows) push_accepted 0 (by decide) PUSH_PROVER (by decide) (by decide +kernel) (by decide +kernel)).1
  rw [show op (mkTable pushRows 0) = 0x60 from by decide +kernel] at this
  unfold PcSpec at this
  rw [if_neg (by decide), if_neg (by decide), if_neg (by decide)] at this
  revert this
  decide +kernel

/-- In user mode, `JUMP` to 100, which is then executed in kernel mode. -/
def jumpRows : List (List (ℕ × ℕ)) :=
  [[(PC, 7), (STACK_LEN, 1), (JUMPS, 1), (CLOCK, 1), (SHOULD_JUMP, 1), (COND_SUM_PINV, 1), (USED 2, 1), (IS_READ 2, 1),
      (ADDR_SEGMENT 2, SEG_JUMPDEST_BITS), (ADDR_VIRTUAL 2, 100)] ++ opBits 0x56 ++ vals 0 100 ++ vals 1 1 ++ vals 2 1,
   padRow 2 ++ [(GAS, 8)]]

theorem jump_accepted : Accepted labels 2 (mkTable jumpRows) := mkTable_accepted (rows := jumpRows) (by decide +kernel)

/-- C92 fails for the mode: after a jump in user mode the next instruction is executed in kernel mode. -/
theorem C92_violated_mode : ¬ C92_statement := by
  intro h
  have := (h labels 2 (mkTable jumpRows) jump_accepted 0 (by decide) JUMPS (by decide) (by decide +kernel) (by decide +kernel)).2.1
  unfold ModeSpec at this
  revert this
  decide +kernel

/-- `MSTORE_GENERAL` of 5 to `(0, 0, 9)` with four elements on the stack, which leaves 1000 elements. The inverse of `4 - 2` is not
given, so no new top is read. -/
def storeRows : List (List (ℕ × ℕ)) :=
  [[(PC, 99), (STACK_LEN, 4), (KERNEL_MODE, 1), (M_OP_GENERAL, 1), (CLOCK, 1), (P_USED, 1), (P_ADDR_VIRTUAL, 9)] ++ opBits 0xfc ++ vals 0 5 ++
     vals 1 9 ++ readStack 1 2,
   padRow 2 ++ [(STACK_LEN, 1000)] ++ vals 0 777]

theorem store_accepted : Accepted labels 2 (mkTable storeRows) := mkTable_accepted (rows := storeRows) (by decide +kernel)

/-- C92 fails for the stack length: that after `MSTORE_GENERAL` is free. -/
theorem C92_violated_len : ¬ C92_statement := by
  intro h
  have := (h labels 2 (mkTable storeRows) store_accepted 0 (by decide) M_OP_GENERAL (by decide) (by decide +kernel) (by decide +kernel)).2.2.2.2
  rw [show op (mkTable storeRows 0) = 0xfc from by decide +kernel] at this
  unfold LenSpec at this
  rw [if_neg (by decide)] at this
  have := this 0 2 0 (by decide)
  revert this
  decide +kernel

/-! The hypotheses of `C92_registers_partial` are met, with a conclusion in all parts: `DUP1`. -/

example : mkTable dupRows 1 PC = 100 ∧ mkTable dupRows 1 KERNEL_MODE = 1 ∧ mkTable dupRows 1 STACK_LEN = 3 ∧ mkTable dupRows 1 GAS = 3 := by
  have ho : op (mkTable dupRows 0) = 0x80 := by decide +kernel
  obtain ⟨_, hg, hl, hp⟩ := C92_registers_partial dup_accepted (i := 0) (by decide) (f := DUP_SWAP) (by decide) (by decide +kernel) (by decide +kernel)
  rw [ho] at hg hl hp
  have hp := hp (by decide)
  refine ⟨hp.1.trans (by decide +kernel), (hp.2 (by decide) (by decide)).trans (by decide +kernel), ?_, ?_⟩
  · have := hl (by decide) 3 0 1 (by decide)
    have e : mkTable dupRows 0 STACK_LEN = 2 := by decide +kernel
    rw [e] at this
    linear_combination this
  · exact (hg 3 0 1 (by decide)).trans (by decide +kernel)

/-! Those of `C92_syscall` are met by the system call in row 1 of `userFpRows`: it goes on at 100, and returns to 9 with 3 gas used. -/

example : mkTable userFpRows 2 PC = 100 ∧ mkTable userFpRows 2 KERNEL_MODE = 1 ∧ mkTable userFpRows 2 (VALUE 0 0) = 9 := by
  obtain ⟨h1, h2, _, _, _, _, h3, _⟩ := C92_syscall userFp_accepted (i := 1) (by decide) (.inl (by decide +kernel))
  exact ⟨h1.trans (by decide +kernel), h2, h3.trans (by decide +kernel)⟩

end Verif.Stark.Cpu
