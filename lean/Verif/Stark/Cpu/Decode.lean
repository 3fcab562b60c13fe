import Verif.Stark.Cpu.Concrete

/-! Instructions are decoded as the instruction set says: what the CPU table and its lookups enforce, and what they do not. -/

namespace Verif.Stark.Cpu

variable {L : Labels} {lv nv : Row F}

/-- C91 in full: a row that executes an instruction (neither a system call nor an exception) has an opcode its flag stands for and is in
kernel mode if the opcode is for the kernel only. -/
def C91_statement : Prop :=
  ∀ (L : Labels) (n : ℕ) (T : ℕ → Row F) (m : ℕ) (A : ℕ → Row F) (m' : ℕ) (B : ℕ → Row F),
    Accepted L n T → Arith.Accepted m A → m < P → ArithLinked n T m A → Satisfies Logic.evalLogic m' B → LogicLinked n T m' B →
    ∀ i < n, ∀ f ∈ flags, f ≠ SYSCALL → f ≠ EXCEPTION → T i f = 1 → Valid f (op (T i)) (kernel (T i))

/-- `decode.rs`, seen as conditions on an opcode and the mode. -/
def decoded (f o k : ℕ) : Bool :=
  opcodes.all (fun e => e.2.2.2 ≠ f || decide ((if e.2.2.1 then 1 - k else 0) +
    ((List.range' e.2.1 (8 - e.2.1)).map (fun i => (e.1.testBit i ^^ o.testBit i).toNat)).sum = 0)) &&
  (f ≠ M_OP_GENERAL || k == 1 && (o == 0xfb || o == 0xfc)) &&
  (f ≠ JUMPDEST_KECCAK || (k == 1 || o.testBit 1) && (o == 0x21 || o == 0x5b)) &&
  (f ≠ PC_PUSH0 || (o == 0x58 || o == 0x5f)) &&
  (f ≠ NOT_POP || (o == 0x19 || o == 0x50)) &&
  (f ≠ M_OP_32 || k == 1 && (((List.range' 5 3).map (fun i => (o.testBit i).toNat * 2 ^ i)).sum == 0xc0 || o == 0xf8)) &&
  (f ≠ PUSH_PROVER || (o == 0xee || ((List.range' 5 3).map (fun i => (o.testBit i).toNat * 2 ^ i)).sum == 0x60) && (!o.testBit 7 || k == 1)) &&
  (f ≠ FP254 || k == 1)

theorem fbit_cast (o i : ℕ) : fbit o i = ((o.testBit i).toNat : F) := by
  unfold fbit
  cases o.testBit i <;> simp

theorem mismatch_cast (o oc : ℕ) (l : List ℕ) : (l.map (fun i => if oc.testBit i then 1 - fbit o i else fbit o i)).sum =
    (((l.map (fun i => (oc.testBit i ^^ o.testBit i).toNat)).sum : ℕ) : F) := by
  induction l with
  | nil => simp
  | cons x l ih =>
    simp only [List.map_cons, List.sum_cons, Nat.cast_add, ih]
    congr 1
    unfold fbit
    cases oc.testBit x <;> cases o.testBit x <;> simp

theorem mismatch_le (o oc : ℕ) (l : List ℕ) : (l.map (fun i => (oc.testBit i ^^ o.testBit i).toNat)).sum ≤ l.length := by
  induction l with
  | nil => simp
  | cons x l ih =>
    simp only [List.map_cons, List.sum_cons, List.length_cons]
    have := Bool.toNat_le (oc.testBit x ^^ o.testBit x)
    omega

theorem high_cast (o : ℕ) (l : List ℕ) : (l.map (fun i => fbit o i * 2 ^ i)).sum = (((l.map (fun i => (o.testBit i).toNat * 2 ^ i)).sum : ℕ) : F) := by
  induction l with
  | nil => simp
  | cons x l ih =>
    simp only [List.map_cons, List.sum_cons, Nat.cast_add, ih]
    rw [fbit_cast, Nat.cast_mul, Nat.cast_pow, Nat.cast_ofNat]

theorem eq_of_sub {a b : ℕ} (ha : a < 256) (hb : b < 256) (h : (a : F) - (b : F) = 0) : a = b :=
  Arith.lift_nat (sub_eq_zero.1 h) (lt_trans ha (by decide)) (lt_trans hb (by decide))

theorem eq_or {a b c d : ℕ} (ha : a < 256) (hb : b < 256) (hc : c < 256) (hd : d < 256) (h : ((a : F) - (b : F)) * ((c : F) - (d : F)) = 0) :
    a = b ∨ c = d :=
  (mul_eq_zero.1 h).imp (eq_of_sub ha hb) (eq_of_sub hc hd)

theorem high_lt : ∀ o < 256, ((List.range' 5 3).map (fun i => (o.testBit i).toNat * 2 ^ i)).sum < 256 := by decide +kernel

theorem Always.decoded (h : Always L lv nv) {f : ℕ} (h1 : lv f = 1) {k : ℕ} (hk : k = 0 ∨ k = 1) (hkm : lv KERNEL_MODE = (k : F)) :
    decoded f (op lv) k = true := by
  obtain ⟨hlt, hop, hb⟩ := h.op_bits
  have ho : ∀ e ∈ opcodes, lv e.2.2.2 * ((if e.2.2.1 then 1 - lv KERNEL_MODE else 0) + mismatch lv e.1 e.2.1) = 0 := by
    intro e he
    refine h.get decode_mem ?_
    unfold evalDecode
    simp only [List.mem_append]
    exact .inl (.inr (List.mem_map.2 ⟨e, he, rfl⟩))
  have get : ∀ v : F, (⟨.always, v⟩ : Constr F) ∈ evalDecode lv → v = 0 := fun v hv => h.get decode_mem hv
  have g1 := get ((lv KERNEL_MODE - 1) * lv FP254) (by simp [evalDecode])
  have g2 := get ((lv KERNEL_MODE - 1) * lv M_OP_GENERAL) (by simp [evalDecode])
  have g3 := get ((opcode lv - 0xfb) * (opcode lv - 0xfc) * lv M_OP_GENERAL) (by simp [evalDecode])
  have g4 := get ((lv KERNEL_MODE - 1) * lv JUMPDEST_KECCAK * (1 - lv (BIT 1))) (by simp [evalDecode])
  have g5 := get ((opcode lv - 0x21) * (opcode lv - 0x5b) * lv JUMPDEST_KECCAK) (by simp [evalDecode])
  have g6 := get ((opcode lv - 0x58) * (opcode lv - 0x5f) * lv PC_PUSH0) (by simp [evalDecode])
  have g7 := get ((opcode lv - 0x19) * (opcode lv - 0x50) * lv NOT_POP) (by simp [evalDecode])
  have g8 := get ((lv KERNEL_MODE - 1) * lv M_OP_32) (by simp [evalDecode])
  have g9 := get ((bitsSum lv 5 8 - 0xc0) * (opcode lv - 0xf8) * lv M_OP_32) (by simp [evalDecode])
  have g10 := get ((opcode lv - 0xee) * (bitsSum lv 5 8 - 0x60) * lv PUSH_PROVER) (by simp [evalDecode])
  have g11 := get (lv PUSH_PROVER * lv (BIT 7) * (lv KERNEL_MODE - 1)) (by simp [evalDecode])
  rw [← hop] at g3 g5 g6 g7 g9 g10
  rw [bitsSum_eq hb (by decide), high_cast] at g9 g10
  rw [hb 1 (by decide), fbit_cast] at g4
  rw [hb 7 (by decide), fbit_cast] at g11
  have cut : ∀ (g : ℕ) (v : F), lv g * v = 0 → g = f → v = 0 := by
    intro g v hz e
    rw [e, h1, one_mul] at hz
    exact hz
  have cut' : ∀ (g : ℕ) (v : F), v * lv g = 0 → g = f → v = 0 := by
    intro g v hz e
    exact cut g v (by rw [mul_comm]; exact hz) e
  have hk1 : ∀ g, (lv KERNEL_MODE - 1) * lv g = 0 → g = f → k = 1 := by
    intro g hz e
    have := cut' _ _ hz e
    rw [hkm] at this
    exact eq_of_sub (b := 1) (by omega) (by decide) (by rw [Nat.cast_one]; exact this)
  have two : ∀ (a b : ℕ) (g : ℕ), a < 256 → b < 256 → ((op lv : F) - (a : F)) * ((op lv : F) - (b : F)) * lv g = 0 → g = f →
      op lv = a ∨ op lv = b := fun a b g ha hb hz e => eq_or hlt ha hlt hb (cut' _ _ hz e)
  unfold Cpu.decoded
  simp only [Bool.and_eq_true, Bool.or_eq_true, decide_eq_true_eq, List.all_eq_true, ne_eq, beq_iff_eq, Bool.not_eq_true']
  refine ⟨⟨⟨⟨⟨⟨⟨?_, ?_⟩, ?_⟩, ?_⟩, ?_⟩, ?_⟩, ?_⟩, ?_⟩
  · intro e he
    by_cases hne : e.2.2.2 = f
    · refine .inr ?_
      have := cut _ _ (ho e he) hne
      rw [mismatch_eq hb, mismatch_cast, hkm] at this
      have hle := mismatch_le (op lv) e.1 (List.range' e.2.1 (8 - e.2.1))
      rw [List.length_range'] at hle
      refine eq_of_sub (b := 0) ?_ (by decide) ?_
      · split <;> omega
      · rw [← this]
        rcases hk with e' | e' <;> subst e' <;> split <;> simp
    · exact .inl hne
  all_goals refine (em' _).imp_right (fun e => ?_)
  · exact ⟨hk1 _ g2 e.symm, two 0xfb 0xfc _ (by decide) (by decide) (by exact_mod_cast g3) e.symm⟩
  · refine ⟨?_, two 0x21 0x5b _ (by decide) (by decide) (by exact_mod_cast g5) e.symm⟩
    have := cut JUMPDEST_KECCAK ((lv KERNEL_MODE - 1) * (1 - (((op lv).testBit 1).toNat : F))) (by linear_combination g4) e.symm
    cases hb1 : (op lv).testBit 1
    · rw [hb1] at this
      refine .inl (eq_of_sub (b := 1) (by omega) (by decide) ?_)
      rw [← hkm]
      simpa using this
    · exact .inr rfl
  · exact two 0x58 0x5f _ (by decide) (by decide) (by exact_mod_cast g6) e.symm
  · exact two 0x19 0x50 _ (by decide) (by decide) (by exact_mod_cast g7) e.symm
  · refine ⟨hk1 _ g8 e.symm, ?_⟩
    exact eq_or (b := 0xc0) (d := 0xf8) (high_lt _ hlt) (by decide) hlt (by decide) (cut' M_OP_32 _ (by exact_mod_cast g9) e.symm)
  · refine ⟨eq_or (b := 0xee) (d := 0x60) hlt (by decide) (high_lt _ hlt) (by decide) (cut' PUSH_PROVER _ (by exact_mod_cast g10) e.symm), ?_⟩
    have := cut PUSH_PROVER ((((op lv).testBit 7).toNat : F) * (lv KERNEL_MODE - 1)) (by linear_combination g11) e.symm
    cases hb7 : (op lv).testBit 7
    · exact .inl rfl
    · rw [hb7] at this
      refine .inr (eq_of_sub (b := 1) (by omega) (by decide) ?_)
      rw [← hkm]
      simpa using this
  · exact hk1 _ g1 e.symm

/-- The flags whose opcodes `decode.rs` checks completely. -/
def checked : List ℕ := [EQ_ISZERO, NOT_POP, JUMPDEST_KECCAK, JUMPS, PUSH_PROVER, DUP_SWAP, CONTEXT_OP, M_OP_32, EXIT_KERNEL, M_OP_GENERAL,
  PC_PUSH0]

theorem decoded_valid : ∀ f ∈ checked, ∀ o < 256, ∀ k < 2, decoded f o k = true → Valid f o (decide (k = 1)) := by
  decide +kernel

theorem decoded_fp : ∀ o < 256, decoded FP254 o 0 = false := by decide +kernel

theorem Always.valid (h : Always L lv nv) {f : ℕ} (hf : f ∈ checked) (h1 : lv f = 1) : Valid f (op lv) (kernel lv) := by
  rcases h.mode with e | e
  · have := decoded_valid f hf _ h.op_bits.1 0 (by decide) (h.decoded h1 (.inl rfl) (by rw [e, Nat.cast_zero]))
    simpa [kernel, e] using this
  · have := decoded_valid f hf _ h.op_bits.1 1 (by decide) (h.decoded h1 (.inr rfl) (by rw [e, Nat.cast_one]))
    simpa [kernel, e] using this

/-- C91, the part that holds. A row executes at most one instruction; its opcode is one its flag stands for, and it is in kernel mode if
the opcode is for the kernel only, unless its flag is one of BINARY, TERNARY, FP254 and SHIFT. The flag FP254 is for the kernel only,
and TERNARY is if bit 1 of the opcode is set (as in SUBMOD). Missing: the opcodes of these four flags (`C91_statement`), for which
see `C91_violated`. -/
theorem C91_decode_partial {n : ℕ} {T : ℕ → Row F} (h : Accepted L n T) {m : ℕ} {B : ℕ → Row F} (hB : Satisfies Logic.evalLogic m B)
    (hl : LogicLinked n T m B) {i : ℕ} (hi : i < n) {f : ℕ} (hf : f ∈ flags) (h1 : T i f = 1) :
    (∀ g ∈ flags, g ≠ f → T i g = 0) ∧
    (f ∉ [BINARY, TERNARY, FP254, SHIFT, SYSCALL, EXCEPTION] → Valid f (op (T i)) (kernel (T i))) ∧
    (f = FP254 ∨ f = TERNARY ∧ (op (T i)).testBit 1 = true → kernel (T i) = true) := by
  have ha := h.always hi
  refine ⟨ha.only hf h1, fun hne => ?_, ?_⟩
  · by_cases hL : f = LOGIC
    · subst hL
      obtain ⟨o, a, b, out, he, ho, _⟩ := hl i hi h1
      have hs := Logic.C41_logic hB he
      have hoL : o = 0x16 ∨ o = 0x17 ∨ o = 0x18 := by
        unfold Logic.LogicSpec at hs
        split at hs <;> simp_all
      have : op (T i) = o := by
        obtain ⟨_, hop, _⟩ := ha.op_bits
        unfold op
        rw [ho]
        exact ZMod.val_natCast_of_lt (lt_trans he.choose_spec.2.2.2.1 (by decide))
      rw [this]
      refine ⟨(LOGIC, [0x16, 0x17, 0x18], false), by decide, rfl, ?_, by simp⟩
      rcases hoL with e | e | e <;> simp [e]
    · refine ha.valid ?_ h1
      revert hf hne hL
      clear h1
      revert f
      decide
  · rintro (e | ⟨e, hb⟩) <;> subst e
    · rcases ha.mode with e | e
      · have := ha.decoded h1 (.inl rfl) (by rw [e, Nat.cast_zero])
        rw [decoded_fp _ ha.op_bits.1] at this
        exact absurd this (by decide)
      · simp [kernel, e]
    · have := ha.get decode_mem (v := T i TERNARY * T i (BIT 1) * (T i KERNEL_MODE - 1)) (by simp [evalDecode])
      rw [h1, ha.op_bits.2.2 1 (by decide)] at this
      unfold fbit at this
      rw [hb] at this
      simp only [if_true, one_mul] at this
      simp [kernel, sub_eq_zero.1 this]

end Verif.Stark.Cpu
