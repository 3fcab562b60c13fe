import Verif.Stark.Arith.Rows
import Verif.Stark.Arith.Byte

/-! The arithmetic table as a whole. `evm_arithmetization/src/arithmetic/arithmetic_stark.rs`. -/

namespace Verif.Stark.Arith

open Finset

variable {R : Type} [CommRing R]

/-- The constraints on the flags and the opcode column. `arithmetic_stark.rs:211-223`. -/
def evalFlags (lv : Row R) : List (Constr R) :=
  let all := ((List.range N_FLAGS).map lv).sum
  (List.range N_FLAGS).map (fun i => ⟨.always, lv i * (lv i - 1)⟩) ++
  [⟨.always, all * (all - 1)⟩, ⟨.always, (1 - lv IS_RANGE_CHECK) * lv OPCODE_COL⟩]

/-- The constraints on the range counter. `arithmetic_stark.rs:225-234`. -/
def evalCounter (lv nv : Row R) : List (Constr R) :=
  let incr := nv RANGE_COUNTER - lv RANGE_COUNTER
  [⟨.first, lv RANGE_COUNTER⟩, ⟨.transition, incr * incr - incr⟩, ⟨.last, lv RANGE_COUNTER - 65535⟩]

/-- `ArithmeticStark::eval_packed_generic`. `arithmetic_stark.rs:203-252`. The circuit version `eval_ext_circuit` is not
modelled. -/
def evalArith (lv nv : Row R) : List (Constr R) :=
  evalFlags lv ++ evalCounter lv nv ++ evalMul lv ++ evalAddSubLtGt lv ++ evalDivmod lv nv ++ evalModular lv nv ++ evalByte lv ++
  evalShift lv nv

/-- The lookup of all shared columns in the range counter (`lookups`, `arithmetic_stark.rs:320-327`): every value occurs in
the counter's column. That the logarithmic derivative argument enforces this is starky's, not modelled. -/
def RangeLookup (n : ℕ) (T : ℕ → Row F) : Prop :=
  ∀ i < n, ∀ c, START_SHARED_COLS ≤ c → c < START_SHARED_COLS + NUM_SHARED_COLS → ∃ j < n, T i c = T j RANGE_COUNTER

/-- A trace of height `n` the verifier accepts, as far as the table itself is concerned. -/
structure Accepted (n : ℕ) (T : ℕ → Row F) : Prop where
  constraints : Satisfies evalArith n T
  lookup : RangeLookup n T

/-- `COMBINED_OPS`. `arithmetic_stark.rs:73-90`. -/
def combinedOps : List (ℕ × ℕ) :=
  [(IS_ADD, 0x01), (IS_MUL, 0x02), (IS_SUB, 0x03), (IS_DIV, 0x04), (IS_MOD, 0x06), (IS_ADDMOD, 0x08), (IS_MULMOD, 0x09),
   (IS_ADDFP254, 0x0c), (IS_MULFP254, 0x0d), (IS_SUBFP254, 0x0e), (IS_SUBMOD, 0x0f), (IS_LT, 0x10), (IS_GT, 0x11),
   (IS_BYTE, 0x1a), (IS_SHL, 0x1b), (IS_SHR, 0x1c)]

/-- The filter of the rows shared with the CPU: the sum of all flags. `arithmetic_stark.rs:99-102`. -/
def ctlFilter (row : Row R) : R := ((combinedOps.map (fun o => row o.1)) ++ [row IS_RANGE_CHECK]).sum

/-- The opcode shared with the CPU. `arithmetic_stark.rs:37-41, 104-105`. -/
def ctlOpcode (row : Row R) : R := ((combinedOps.map (fun o => (o.2 : R) * row o.1)) ++ [row OPCODE_COL]).sum

/-- The `k`-th word of thirty-two bits of a register. `arithmetic_stark.rs:50-55`. -/
def ctlWord (row : Row R) (start k : ℕ) : R := row (start + 2 * k) + 65536 * row (start + 2 * k + 1)

/-- `read`s as the number `a`: the words are those of `a`, as the CPU table has them in a memory channel. (Specification.) -/
def Words (row : Row F) (start a : ℕ) : Prop := a < 2 ^ 256 ∧ ∀ k < 8, ctlWord row start k = ((a / 2 ^ (32 * k) % 2 ^ 32 : ℕ) : F)

/-- The table exports the operation `op a b c = out` to the CPU table: some row shared with it holds exactly this.
`ctl_arithmetic_rows`, `arithmetic_stark.rs:63-117`. -/
def Exports (n : ℕ) (T : ℕ → Row F) (op a b c out : ℕ) : Prop :=
  ∃ i < n, ctlFilter (T i) = 1 ∧ ctlOpcode (T i) = (op : F) ∧ op < 256 ∧ Words (T i) INPUT_REGISTER_0 a ∧ Words (T i) INPUT_REGISTER_1 b ∧
    Words (T i) INPUT_REGISTER_2 c ∧ Words (T i) OUTPUT_REGISTER out

/-! ### The range check -/

theorem Accepted.at {n : ℕ} {T : ℕ → Row F} (h : Accepted n T) {i : ℕ} (hi : i < n) {c : Constr F}
    (hc : c ∈ evalArith (T i) (T ((i + 1) % n))) (ha : c.on.applies n i) : c.val = 0 := h.constraints i hi c hc ha

/-- The counter never exceeds its row number, nor 65535. -/
theorem counter_le {n : ℕ} {T : ℕ → Row F} (h : Accepted n T) :
    ∀ i < n, ∃ k : ℕ, k ≤ i ∧ T i RANGE_COUNTER = (k : F) ∧ ∀ j ≤ i, ∃ l ≤ k, T j RANGE_COUNTER = (l : F) := by
  intro i
  induction i with
  | zero =>
    intro hi
    have : T 0 RANGE_COUNTER = 0 := h.at hi (c := ⟨.first, T 0 RANGE_COUNTER⟩) (by simp [evalArith, evalCounter]) rfl
    refine ⟨0, le_refl _, by rw [this]; simp, fun j hj => ?_⟩
    obtain rfl : j = 0 := by omega
    exact ⟨0, le_refl _, by rw [this]; simp⟩
  | succ i ih =>
    intro hi
    obtain ⟨k, hk, hT, hj⟩ := ih (by omega)
    have hmod : (i + 1) % n = i + 1 := Nat.mod_eq_of_lt hi
    have := h.at (i := i) (by omega) (c := ⟨.transition, (T ((i + 1) % n) RANGE_COUNTER - T i RANGE_COUNTER) *
      (T ((i + 1) % n) RANGE_COUNTER - T i RANGE_COUNTER) - (T ((i + 1) % n) RANGE_COUNTER - T i RANGE_COUNTER)⟩)
      (by simp [evalArith, evalCounter]) (by simp only [When.applies]; omega)
    simp only [hmod] at this
    obtain ⟨b, hb, he, -⟩ := nat_bit this
    have hT' : T (i + 1) RANGE_COUNTER = ((k + b : ℕ) : F) := by push_cast; rw [← hT, ← he]; ring
    refine ⟨k + b, by omega, hT', fun j hj' => ?_⟩
    rcases Nat.lt_or_ge j (i + 1) with hlt | hge
    · obtain ⟨l, hl, hl'⟩ := hj j (by omega)
      exact ⟨l, by omega, hl'⟩
    · obtain rfl : j = i + 1 := by omega
      exact ⟨k + b, le_refl _, hT'⟩

/-- Every shared cell holds sixteen bits. -/
theorem ranged {n : ℕ} {T : ℕ → Row F} (h : Accepted n T) (hn : n < P) : ∀ i < n, Ranged (T i) := by
  intro i hi c hc hc'
  obtain ⟨j, hj, he⟩ := h.lookup i hi c hc hc'
  obtain ⟨k, hk, hT, hall⟩ := counter_le h (n - 1) (by omega)
  have hlast : T (n - 1) RANGE_COUNTER - 65535 = 0 := h.at (i := n - 1) (by omega) (c := ⟨.last, T (n - 1) RANGE_COUNTER - 65535⟩)
    (by simp [evalArith, evalCounter]) (by simp only [When.applies]; omega)
  have hk' : k = 65535 := by
    refine lift_nat ?_ (by omega) (by decide)
    rw [← hT]; push_cast; exact sub_eq_zero.1 hlast
  obtain ⟨l, hl, hl'⟩ := hall j (by omega)
  rw [he, hl', ZMod.val_natCast, Nat.mod_eq_of_lt (by unfold P; omega)]
  simp only [base]; omega

/-! ### The flags -/

theorem flag_bits {n : ℕ} {T : ℕ → Row F} (h : Accepted n T) {i : ℕ} (hi : i < n) : ∀ f < N_FLAGS, T i f = 0 ∨ T i f = 1 := by
  intro f hf
  have : T i f * (T i f - 1) = 0 := h.at hi (c := ⟨.always, T i f * (T i f - 1)⟩)
    (by simp only [evalArith, evalFlags, List.mem_append, List.mem_map]
        exact .inl (.inl (.inl (.inl (.inl (.inl (.inl (.inl ⟨f, List.mem_range.2 hf, rfl⟩)))))))) trivial
  rcases mul_eq_zero.1 this with h | h
  · exact .inl h
  · exact .inr (sub_eq_zero.1 h)

/-- At most one of finitely many bits is set if their sum is a bit and there are fewer than the field has elements. -/
theorem only_of_sum {b : ℕ → F} {m : ℕ} (hm : m < P) (hb : ∀ i < m, b i = 0 ∨ b i = 1) (hs : (∑ i ∈ range m, b i) = 0 ∨ (∑ i ∈ range m, b i) = 1)
    {f : ℕ} (hf : f < m) (h1 : b f = 1) : ∀ g < m, g ≠ f → b g = 0 := by
  have hv : ∀ i < m, (b i).val ≤ 1 := by
    intro i hi
    have e1 : (1 : F).val = 1 := by decide +kernel
    rcases hb i hi with h | h <;> rw [h]
    · simp
    · rw [e1]
  have hsum : (∑ i ∈ range m, b i) = ((∑ i ∈ range m, (b i).val : ℕ) : F) := by
    push_cast; exact sum_congr rfl (fun i _ => (val_cast _).symm)
  have hle : ∑ i ∈ range m, (b i).val ≤ m := by
    refine (sum_le_card_nsmul _ _ 1 (fun i hi => hv i (mem_range.1 hi))).trans (by simp)
  have hle1 : ∑ i ∈ range m, (b i).val ≤ 1 := by
    rcases hs with h | h
    · have := lift_nat (a := ∑ i ∈ range m, (b i).val) (b := 0) (by rw [← hsum, h]; simp) (by omega) (by decide); omega
    · have := lift_nat (a := ∑ i ∈ range m, (b i).val) (b := 1) (by rw [← hsum, h]; simp) (by omega) (by decide); omega
  have e1 : (b f).val = 1 := by rw [h1]; decide +kernel
  intro g hg hgf
  have hpair : ∑ i ∈ {f, g}, (b i).val ≤ ∑ i ∈ range m, (b i).val := by
    refine sum_le_sum_of_subset ?_
    intro x hx
    rw [mem_insert, mem_singleton] at hx
    rcases hx with rfl | rfl <;> exact mem_range.2 ‹_›
  rw [sum_pair (Ne.symm hgf)] at hpair
  have : (b g).val = 0 := by omega
  exact (ZMod.val_eq_zero _).1 this

theorem flags_only {n : ℕ} {T : ℕ → Row F} (h : Accepted n T) {i : ℕ} (hi : i < n) {f : ℕ} (hf : f < N_FLAGS) (h1 : T i f = 1) : Only (T i) f := by
  refine ⟨h1, only_of_sum (by decide) (flag_bits h hi) ?_ hf h1⟩
  rw [← sum_range_map]
  have : ((List.range N_FLAGS).map (T i)).sum * (((List.range N_FLAGS).map (T i)).sum - 1) = 0 :=
    h.at hi (c := ⟨.always, ((List.range N_FLAGS).map (T i)).sum * (((List.range N_FLAGS).map (T i)).sum - 1)⟩)
      (by simp [evalArith, evalFlags]) trivial
  rcases mul_eq_zero.1 this with h | h
  · exact .inl h
  · exact .inr (sub_eq_zero.1 h)

/-- The constraints of every part that apply in the middle of the table hold on all rows but the last. -/
theorem holds_mid {n : ℕ} {T : ℕ → Row F} (h : Accepted n T) {i : ℕ} (hi : i + 1 < n) : Holds (evalArith (T i) (T (i + 1))) := by
  intro c hc hon
  refine h.at (i := i) (by omega) (by rw [Nat.mod_eq_of_lt hi]; exact hc) ?_
  rcases hon with e | e <;> rw [e] <;> simp only [When.applies]
  omega

theorem always_at {n : ℕ} {T : ℕ → Row F} (h : Accepted n T) {i : ℕ} (hi : i < n) {cs : List (Constr F)}
    (hsub : ∀ c ∈ cs, c ∈ evalArith (T i) (T ((i + 1) % n))) (hon : ∀ c ∈ cs, c.on = .always) : ∀ c ∈ cs, c.val = 0 :=
  fun c hc => h.at hi (hsub c hc) (by rw [hon c hc]; trivial)

/-- A two row operation is not on the last row. -/
theorem not_last {n : ℕ} {T : ℕ → Row F} (h : Accepted n T) {i : ℕ} (hi : i < n) {v : F} (hv : v ≠ 0)
    (hc : ⟨.last, v⟩ ∈ evalArith (T i) (T ((i + 1) % n))) : i + 1 < n := by
  by_contra hge
  exact hv (h.at hi hc (by simp only [When.applies]; omega))

/-! ### What the CPU reads -/

/-- The words of a register of limbs of sixteen bits determine it. -/
theorem words_num {row : Row F} (hr : Ranged row) {s a : ℕ} (hs : InShared s) (h : Words row s a) : num row s = a := by
  obtain ⟨ha, hw⟩ := h
  obtain ⟨hs1, hs2⟩ := hs
  have hword : ∀ k < 8, (row (s + 2 * k)).val + 65536 * (row (s + 2 * k + 1)).val = a / 2 ^ (32 * k) % 2 ^ 32 := by
    intro k hk
    have h1 := hr (s + 2 * k) (by omega) (by simp only [nLimbs] at *; omega)
    have h2 := hr (s + 2 * k + 1) (by omega) (by simp only [nLimbs] at *; omega)
    simp only [base] at h1 h2
    have h3 : a / 2 ^ (32 * k) % 2 ^ 32 < 2 ^ 32 := Nat.mod_lt _ (by decide)
    refine lift_nat ?_ (by unfold P; omega) (by unfold P; omega)
    rw [← hw k hk]; push_cast; rw [val_cast, val_cast]; rfl
  have hsum : num row s = ∑ k ∈ range 8, (a / 2 ^ (32 * k) % 2 ^ 32) * (2 ^ 32) ^ k := by
    unfold num
    have e : ∀ m, ∑ i ∈ range (2 * m), (row (s + i)).val * base ^ i =
        ∑ k ∈ range m, ((row (s + 2 * k)).val + 65536 * (row (s + 2 * k + 1)).val) * (2 ^ 32) ^ k := by
      intro m
      induction m with
      | zero => simp
      | succ m ih =>
        rw [show 2 * (m + 1) = 2 * m + 1 + 1 by ring, sum_range_succ, sum_range_succ, ih, sum_range_succ, add_assoc]
        congr 1
        rw [show (2 : ℕ) ^ 32 = base ^ 2 by decide, ← pow_mul, pow_succ, ← add_assoc]
        simp only [base]; ring
    rw [show nLimbs = 2 * 8 from rfl, e 8]
    exact sum_congr rfl (fun k hk => by rw [hword k (mem_range.1 hk)])
  have hdig : ∀ m, ∑ k ∈ range m, (a / 2 ^ (32 * k) % 2 ^ 32) * (2 ^ 32) ^ k = a % (2 ^ 32) ^ m := by
    intro m
    induction m with
    | zero => simp [Nat.mod_one]
    | succ m ih =>
      rw [sum_range_succ, ih, pow_succ (2 ^ 32) m, Nat.mod_mul, ← pow_mul 2 32 m, mul_comm (a / _ % _)]
  rw [hsum, hdig 8]
  exact Nat.mod_eq_of_lt (lt_of_lt_of_eq ha (by norm_num))

end Verif.Stark.Arith
