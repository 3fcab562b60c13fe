import Verif.Stark.Cpu.Exec

/-! C95, assembled. -/

namespace Verif.Stark.Cpu

variable {L : Labels} {n : ℕ} {T : ℕ → Row F} {i o : ℕ} {M M' : Mem} {S : List ℕ}

/-- What the proof of one instruction starts from. -/
structure Setting (L : Labels) (n : ℕ) (T : ℕ → Row F) (i : ℕ) (o f : ℕ) (M M' : Mem) (S : List ℕ) : Prop where
  step : Step L (T i) (T (i + 1))
  exec : Executes (T i) (T (i + 1)) o M M' S
  flag : T i f = 1
  ctx : T (i + 1) CONTEXT = T i CONTEXT
  len : o ≠ 0xfc → LenSpec o (T i) (T (i + 1))
  ops : Runs M (expectedOps o (S.headD 0) (S.tail.headD 0) (T i) (T (i + 1))) M'

variable {f : ℕ}

theorem Setting.length (h : Setting L n T i o f M M' S) {g p q : ℕ} (hne : o ≠ 0xfc) (hne' : o ≠ 0xf9) (hc : cost o = some (g, p, q)) :
    T (i + 1) STACK_LEN + (p : F) = T i STACK_LEN + (q : F) := by
  have := h.len hne
  unfold LenSpec at this
  rw [if_neg hne'] at this
  exact this g p q hc

theorem Setting.bit (h : Setting L n T i o f M M' S) {j : ℕ} (hj : j < 8) {v : F} (hv : fbit o j = v) : T i (BIT j) = v :=
  one_bit h.step hj (by rw [h.exec.op]; exact hv)

/-- Two operands. -/
theorem Setting.binary (h : Setting L n T i o f M M' S) {g : ℕ} (hne : o ≠ 0xfc ∧ o ≠ 0xf9) (hc : cost o = some (g, 2, 1)) (hn : needs o = 2)
    (ho : expectedOps o (S.headD 0) (S.tail.headD 0) (T i) (T (i + 1)) = [rdStack (T i) (T i STACK_LEN - 2) (value (T i) 1)]) :
    ∃ a b R, S = a :: b :: R ∧ Holds (T i) 0 a ∧ Holds (T i) 1 b ∧ M' = M ∧ ∀ out, Holds (T (i + 1)) 0 out → OnStack M' (T (i + 1)) (out :: R) :=
  binary_on h.exec.stack h.exec.words (hn ▸ h.exec.enough) (ho ▸ h.ops) (h.length hne.1 hne.2 hc) h.ctx

theorem binary_table : ∀ o ∈ [0x01, 0x02, 0x03, 0x04, 0x06, 0x0c, 0x0d, 0x0e, 0x10, 0x11, 0x1a, 0x16, 0x17, 0x18, 0x14],
    (o ≠ 0xfc ∧ o ≠ 0xf9) ∧ (∃ g, cost o = some (g, 2, 1)) ∧ needs o = 2 ∧
    ¬ (o ∈ [0x08, 0x09, 0x0f] ∨ o ∈ [0x15, 0x19, 0x5b] ∨ o ∈ [0x1b, 0x1c] ∨ (o = 0x50 ∨ o = 0xf9) ∨ o = 0x56 ∨ o = 0x57 ∨
      (o ∈ [0x58, 0x5f, 0xee, 0xf6] ∨ (0x60 ≤ o ∧ o < 0x80)) ∨ (0x80 ≤ o ∧ o < 0x90) ∨ (0x90 ≤ o ∧ o < 0xa0) ∨ o = 0xf7 ∨ o = 0xfb ∨ o = 0xfc) := by
  intro o ho
  simp only [List.mem_cons, List.not_mem_nil, or_false] at ho
  rcases ho with rfl | rfl | rfl | rfl | rfl | rfl | rfl | rfl | rfl | rfl | rfl | rfl | rfl | rfl | rfl <;> exact ⟨by decide, ⟨_, rfl⟩, by decide, by decide⟩

theorem Setting.binary' (h : Setting L n T i o f M M' S) (ho : o ∈ [0x01, 0x02, 0x03, 0x04, 0x06, 0x0c, 0x0d, 0x0e, 0x10, 0x11, 0x1a, 0x16, 0x17, 0x18, 0x14]) :
    ∃ a b R, S = a :: b :: R ∧ Holds (T i) 0 a ∧ Holds (T i) 1 b ∧ M' = M ∧ ∀ out, Holds (T (i + 1)) 0 out → OnStack M' (T (i + 1)) (out :: R) := by
  obtain ⟨hne, ⟨g, hc⟩, hn, hx⟩ := binary_table o ho
  refine h.binary hne hc hn ?_
  simp only [not_or] at hx
  obtain ⟨x1, x2, x3, x4, x5, x6, x7, x8, x9, x10, x11, x12⟩ := hx
  unfold expectedOps
  rw [if_neg x1, if_neg x2, if_neg x3, if_neg (not_or.2 x4), if_neg x5, if_neg x6, if_neg (not_or.2 x7), if_neg x8, if_neg x9, if_neg x10, if_neg x11, if_neg x12]

theorem spec_any {a b c c' out : ℕ} (ho : o ∈ [0x01, 0x02, 0x03, 0x04, 0x06, 0x0c, 0x0d, 0x0e, 0x10, 0x11, 0x1a]) (h : Arith.OpSpec o a b c out) : Arith.OpSpec o a b c' out := by
  simp only [List.mem_cons, List.not_mem_nil, or_false] at ho
  rcases ho with rfl | rfl | rfl | rfl | rfl | rfl | rfl | rfl | rfl | rfl | rfl <;> exact h

/-- What the arithmetic table does not enforce. -/
structure ArithGuard (m : ℕ) (A : ℕ → Row F) (o : ℕ) (S : List ℕ) : Prop where
  range : Arith.NoImpersonation m A
  div : o = 0x04 → S.tail.headD 0 ≠ 0
  shl : o = 0x1b → S.headD 0 < 2 ^ 32
  shr : o = 0x1c → S.headD 0 < 256

theorem Setting.out_binary (h : Setting L n T i o f M M' S) (sys : System L n T) (hi : i + 1 < n) (g : ArithGuard sys.m sys.A o S) (hf : f ∈ [BINARY, FP254])
    (ho : o ∈ [0x01, 0x02, 0x03, 0x04, 0x06, 0x0c, 0x0d, 0x0e, 0x10, 0x11, 0x1a]) : Outcome o (T i) (T (i + 1)) M M' S := by
  obtain ⟨a, b, R, rfl, ha, hb, hM, hout⟩ := h.binary' (List.mem_append_left [0x16, 0x17, 0x18, 0x14] ho)
  obtain ⟨a', b', c', out, he, ha', hb', hc', ho'⟩ := sys.arith_result hi
    (arith_filter h.step.always ((show ∀ g ∈ [BINARY, FP254], g ∈ [BINARY, FP254, TERNARY, SHIFT] by decide) f hf) h.flag)
  obtain rfl := ha.unique ha'
  obtain rfl := hb.unique hb'
  rw [h.exec.op] at he
  have hsp := Arith.C70_exports_partial sys.arith sys.small g.range he g.div (by rintro rfl; exact absurd ho (by decide))
  refine ⟨out :: R, ?_, hout out ho', ?_⟩
  · unfold StackSpec
    rw [if_pos ho]
    exact ⟨a, b, R, out, rfl, spec_any ho hsp, rfl⟩
  · rw [hM]
    exact Frame.spec Frame.refl (by rintro rfl; exact absurd ho (by decide))

theorem Setting.out_ternary (h : Setting L n T i o TERNARY M M' S) (sys : System L n T) (hi : i + 1 < n) (g : ArithGuard sys.m sys.A o S)
    (ho : o ∈ [0x08, 0x09, 0x0f]) : Outcome o (T i) (T (i + 1)) M M' S := by
  have hc : ∃ g, cost o = some (g, 3, 1) := by
    simp only [List.mem_cons, List.not_mem_nil, or_false] at ho
    rcases ho with rfl | rfl | rfl <;> exact ⟨_, rfl⟩
  obtain ⟨gc, hc⟩ := hc
  have hn : needs o = 3 := by unfold needs; rw [if_pos ho]
  have hops := h.ops
  unfold expectedOps at hops
  rw [if_pos ho] at hops
  have hne : o ≠ 0xfc ∧ o ≠ 0xf9 := by constructor <;> (rintro rfl; exact absurd ho (by decide))
  obtain ⟨a, b, c, R, rfl, ha, hb, hd, hM, hout⟩ := ternary_on h.exec.stack h.exec.words (hn ▸ h.exec.enough) hops (h.length hne.1 hne.2 hc) h.ctx
  obtain ⟨a', b', c', out, he, ha', hb', hc', ho'⟩ := sys.arith_result hi (arith_filter h.step.always (f := TERNARY) (by decide) h.flag)
  obtain rfl := ha.unique ha'
  obtain rfl := hb.unique hb'
  obtain rfl := hd.unique hc'
  rw [h.exec.op] at he
  have hsp := Arith.C70_exports_partial sys.arith sys.small g.range he (by rintro rfl; exact absurd ho (by decide)) (by rintro rfl; exact absurd ho (by decide))
  refine ⟨out :: R, ?_, hout out ho', ?_⟩
  · unfold StackSpec
    rw [if_neg (by intro e; simp at ho e; omega), if_neg (by intro e; simp at ho e; omega), if_pos ho]
    exact ⟨a, b, c, R, out, rfl, hsp, rfl⟩
  · rw [hM]
    exact Frame.spec Frame.refl hne.1

theorem Setting.out_shift (h : Setting L n T i o SHIFT M M' S) (sys : System L n T) (hi : i + 1 < n) (g : ArithGuard sys.m sys.A o S)
    (ho : o ∈ [0x1b, 0x1c]) : Outcome o (T i) (T (i + 1)) M M' S := by
  have hne : o ≠ 0xfc ∧ o ≠ 0xf9 := by constructor <;> (rintro rfl; exact absurd ho (by decide))
  have hc : cost o = some (3, 2, 1) := by
    simp only [List.mem_cons, List.not_mem_nil, or_false] at ho
    rcases ho with rfl | rfl <;> rfl
  have hn : needs o = 2 := by
    simp only [List.mem_cons, List.not_mem_nil, or_false] at ho
    rcases ho with rfl | rfl <;> decide
  have hlt : S.headD 0 < 2 ^ 32 := by
    have ho' := ho
    simp only [List.mem_cons, List.not_mem_nil, or_false] at ho'
    rcases ho' with e | e
    · exact g.shl e
    · exact lt_trans (g.shr e) (by decide)
  have hops := h.ops
  unfold expectedOps at hops
  rw [if_neg (by intro e; simp at ho e; omega), if_neg (by intro e; simp at ho e; omega), if_pos ho, if_pos hlt] at hops
  obtain ⟨a, b, R, rfl⟩ := two_of (S := S) (hn ▸ h.exec.enough)
  obtain ⟨hb, hops⟩ := second_on h.exec.stack h.exec.words rfl hops
  obtain ⟨hv, hops⟩ := runs_read.1 hops
  have hM := runs_nil.1 hops
  have hlt : a < 2 ^ 32 := hlt
  have hv : value (T i) 2 = limbs (M (0, SEG_SHIFT_TABLE, (a : F))) := hv
  have ha := h.exec.stack.top a rfl
  have hd : Holds (T i) 2 (if a < 256 then 2 ^ a else 0) := by
    rw [h.exec.shift a hlt] at hv
    refine holds_value ?_ hv
    rw [← h.exec.shift a hlt]
    exact h.exec.words _
  obtain ⟨a', b', c', out, he, ha', hb', hc', ho'⟩ := sys.arith_result hi (arith_filter h.step.always (f := SHIFT) (by decide) h.flag)
  obtain rfl := ha.unique ha'
  obtain rfl := hb.unique hb'
  obtain rfl := hd.unique hc'
  rw [h.exec.op] at he
  have hsp := Arith.C70_exports_partial sys.arith sys.small g.range he (by rintro rfl; exact absurd ho (by decide)) (by
    intro e
    have : a < 256 := g.shr e
    rw [if_pos this]
    positivity)
  have hl := h.length hne.1 hne.2 hc
  refine ⟨out :: R, ?_, ?_, ?_⟩
  · unfold StackSpec
    rw [if_neg (by intro e; simp at ho e; omega), if_pos ho]
    exact ⟨a, b, R, out, rfl, hsp, rfl⟩
  · rw [hM]
    refine replace_on h.exec.stack (a := a) (A := [b]) rfl ?_ h.ctx ho'
    push_cast at hl
    simp only [List.length_cons, List.length_nil]
    push_cast
    linear_combination hl
  · rw [hM]
    exact Frame.spec Frame.refl hne.1

theorem Setting.out_logic (h : Setting L n T i o LOGIC M M' S) (sys : System L n T) (hi : i + 1 < n) (ho : o ∈ [0x16, 0x17, 0x18]) :
    Outcome o (T i) (T (i + 1)) M M' S := by
  obtain ⟨a, b, R, rfl, ha, hb, hM, hout⟩ := h.binary' (by simp at ho ⊢; omega)
  obtain ⟨a', b', out, hsp, ha', hb', ho'⟩ := sys.logic_result hi h.flag
  obtain rfl := ha.unique ha'
  obtain rfl := hb.unique hb'
  rw [h.exec.op] at hsp
  refine ⟨out :: R, ?_, hout out ho', ?_⟩
  · unfold StackSpec
    rw [if_neg (by intro e; simp at ho e; omega), if_neg (by intro e; simp at ho e; omega), if_neg (by intro e; simp at ho e; omega), if_pos ho]
    exact ⟨a, b, R, out, rfl, hsp, rfl⟩
  · rw [hM]
    exact Frame.spec Frame.refl (by rintro rfl; exact absurd ho (by decide))

theorem Setting.out_eq (h : Setting L n T i 0x14 EQ_ISZERO M M' S) : Outcome 0x14 (T i) (T (i + 1)) M M' S := by
  obtain ⟨a, b, R, rfl, ha, hb, hM, hout⟩ := h.binary' (by decide)
  refine ⟨_ :: R, ?_, hout _ (h.step.eq_result h.flag ha hb), ?_⟩
  · exact ⟨a, b, R, rfl, rfl⟩
  · rw [hM]
    exact Frame.spec Frame.refl (by decide)

theorem Setting.out_iszero (h : Setting L n T i 0x15 EQ_ISZERO M M' S) : Outcome 0x15 (T i) (T (i + 1)) M M' S := by
  have hM : M' = M := runs_nil.1 h.ops
  obtain ⟨a, R, rfl, ha, hout⟩ := unary_on h.exec.stack h.exec.enough (h.length (by decide) (by decide) (g := 3) (p := 1) (q := 1) (by decide)) h.ctx
  have hb := h.step.iszero_operand h.flag (h.bit (j := 0) (by decide) (by decide))
  refine ⟨_ :: R, ?_, hM ▸ hout _ (h.step.eq_result h.flag ha hb), ?_⟩
  · exact ⟨a, R, rfl, rfl⟩
  · rw [hM]
    exact Frame.spec Frame.refl (by decide)

theorem Setting.out_not (h : Setting L n T i 0x19 NOT_POP M M' S) : Outcome 0x19 (T i) (T (i + 1)) M M' S := by
  have hM : M' = M := runs_nil.1 h.ops
  obtain ⟨a, R, rfl, ha, hout⟩ := unary_on h.exec.stack h.exec.enough (h.length (by decide) (by decide) (g := 3) (p := 1) (q := 1) (by decide)) h.ctx
  refine ⟨_ :: R, ?_, hM ▸ hout _ (h.step.not_result h.flag (h.bit (j := 0) (by decide) (by decide)) ha), ?_⟩
  · exact ⟨a, R, rfl, rfl⟩
  · rw [hM]
    exact Frame.spec Frame.refl (by decide)

/-- One element taken off. -/
theorem Setting.pop (h : Setting L n T i o f M M' S) (h1 : 1 ≤ S.length) (hr : Runs M (newTop (T i) (T (i + 1)) 1) M')
    (hl : T (i + 1) STACK_LEN + 1 = T i STACK_LEN) : ∃ a S', S = a :: S' ∧ OnStack M' (T (i + 1)) S' ∧ M' = M := by
  obtain ⟨a, R, rfl⟩ := one_of h1
  obtain ⟨h1, h2⟩ := pop_on h.exec.stack h.exec.words h.exec.fits (A := [a]) (R := R) rfl (by simp) hr (by simpa using hl) h.ctx
  exact ⟨a, R, rfl, h1, h2⟩

theorem Setting.out_pop (h : Setting L n T i 0x50 NOT_POP M M' S) : Outcome 0x50 (T i) (T (i + 1)) M M' S := by
  have hl := h.length (by decide) (by decide) (g := 2) (p := 1) (q := 0) (by decide)
  obtain ⟨a, S', hS, hs, hM⟩ := h.pop h.exec.enough h.ops (by simpa using hl)
  refine ⟨S', ⟨a, hS⟩, hs, ?_⟩
  rw [hM]
  exact Frame.spec Frame.refl (by decide)

theorem Setting.out_exit (h : Setting L n T i 0xf9 EXIT_KERNEL M M' S) : Outcome 0xf9 (T i) (T (i + 1)) M M' S := by
  obtain ⟨a, S', hS, hs, hM⟩ := h.pop h.exec.enough h.ops (h.len (by decide))
  refine ⟨S', ⟨a, hS⟩, hs, ?_⟩
  rw [hM]
  exact Frame.spec Frame.refl (by decide)

theorem Setting.out_jump (h : Setting L n T i 0x56 JUMPS M M' S) : Outcome 0x56 (T i) (T (i + 1)) M M' S := by
  have hl := h.length (by decide) (by decide) (g := 8) (p := 1) (q := 0) (by decide)
  obtain ⟨a, S', hS, hs, hM⟩ := h.pop h.exec.enough (runs_jumpdest h.ops) (by simpa using hl)
  refine ⟨S', ⟨a, hS⟩, hs, ?_⟩
  rw [hM]
  exact Frame.spec Frame.refl (by decide)

theorem Setting.out_jumpi (h : Setting L n T i 0x57 JUMPS M M' S) : Outcome 0x57 (T i) (T (i + 1)) M M' S := by
  have hl := h.length (by decide) (by decide) (g := 10) (p := 2) (q := 0) (by decide)
  obtain ⟨a, b, R, rfl⟩ := two_of (S := S) h.exec.enough
  have hops : Runs M ([rdStack (T i) (T i STACK_LEN - 2) (value (T i) 1)] ++ (if b = 0 then [] else jumpdestRead (T i) a) ++ newTop (T i) (T (i + 1)) 2) M' := h.ops
  rw [List.append_assoc] at hops
  have hops := (second_on h.exec.stack h.exec.words rfl hops).2
  have hops : Runs M (newTop (T i) (T (i + 1)) 2) M' := by
    by_cases e : b = 0
    · rw [if_pos e] at hops
      exact hops
    · rw [if_neg e] at hops
      exact runs_jumpdest hops
  obtain ⟨hs, hM⟩ := pop_on h.exec.stack h.exec.words h.exec.fits (A := [a, b]) (R := R) rfl (by simp) hops (by simpa using hl) h.ctx
  refine ⟨R, ⟨a, b, rfl⟩, hs, ?_⟩
  rw [hM]
  exact Frame.spec Frame.refl (by decide)

theorem Setting.out_jumpdest (h : Setting L n T i 0x5b JUMPDEST_KECCAK M M' S) : Outcome 0x5b (T i) (T (i + 1)) M M' S := by
  have hM : M' = M := runs_nil.1 h.ops
  have hl := h.length (by decide) (by decide) (g := 1) (p := 0) (q := 0) (by decide)
  have ht := (one_same (by rw [h.flag, h.bit (j := 1) (v := 1) (by decide) (by decide), mul_one]) h.step.jumpdestOne rfl rfl).2.1
  have hst := h.exec.stack
  refine ⟨S, rfl, ?_, ?_⟩
  · rw [hM]
    refine ⟨?_, ?_, ?_⟩
    · rw [← hst.len]
      simpa using hl
    · intro a ha
      have := hst.top a ha
      exact ⟨this.1, fun k hk => (ht k hk).trans (this.2 k hk)⟩
    · rw [h.ctx]
      exact hst.below
  · rw [hM]
    exact Frame.spec Frame.refl (by decide)

/-- An element pushed. -/
theorem Setting.push (h : Setting L n T i o f M M' S) (hr : Runs M (spill (T i)) M') (hne : o ≠ 0xfc ∧ o ≠ 0xf9) {g : ℕ} (hc : cost o = some (g, 0, 1))
    {a : ℕ} (ha : Holds (T (i + 1)) 0 a) : OnStack M' (T (i + 1)) (a :: S) ∧ MemSpec o (T i CONTEXT) S M M' := by
  have hl := h.length hne.1 hne.2 hc
  obtain ⟨h1, h2⟩ := push_on h.exec.stack h.exec.fits hr (by simpa using hl) h.ctx ha
  exact ⟨h1, h2.spec hne.1⟩

theorem Setting.out_pc (h : Setting L n T i 0x58 PC_PUSH0 M M' S) : Outcome 0x58 (T i) (T (i + 1)) M M' S :=
  ⟨_, rfl, h.push h.ops (by decide) (g := 2) (by decide) (h.step.pc_result h.flag (h.bit (j := 0) (by decide) (by decide)) h.exec.pc)⟩

theorem Setting.out_push0 (h : Setting L n T i 0x5f PC_PUSH0 M M' S) : Outcome 0x5f (T i) (T (i + 1)) M M' S :=
  ⟨_, rfl, h.push h.ops (by decide) (g := 2) (by decide) (h.step.push0_result h.flag (h.bit (j := 0) (by decide) (by decide)))⟩

theorem Setting.out_get (h : Setting L n T i 0xf6 CONTEXT_OP M M' S) : Outcome 0xf6 (T i) (T (i + 1)) M M' S :=
  ⟨_, rfl, h.push h.ops (by decide) (g := 0) (by decide) (h.step.get_result h.flag (h.bit (j := 0) (by decide) (by decide)) h.exec.ctx)⟩

theorem Setting.out_prover (h : Setting L n T i 0xee PUSH_PROVER M M' S) (sys : System L n T) (hi : i + 1 < n) : Outcome 0xee (T i) (T (i + 1)) M M' S := by
  obtain ⟨_, _, _, out, _, _, _, _, ho⟩ := sys.arith_result hi (prover_filter h.step.always h.flag (h.bit (j := 7) (by decide) (by decide)))
  exact ⟨_, ⟨out, rfl⟩, h.push h.ops (by decide) (g := 0) (by decide) ho⟩

theorem dup_spec (ho : o ∈ List.range' 0x80 32) {pc ctx : ℕ} {S' : List ℕ} : StackSpec o pc ctx M S S' ↔
    if o < 0x90 then ∃ A a B, A.length = o - 0x80 ∧ S = A ++ a :: B ∧ S' = a :: S
    else ∃ a A b B, A.length = o - 0x90 ∧ S = a :: A ++ b :: B ∧ S' = b :: A ++ a :: B := by
  rw [List.mem_range'_1] at ho
  unfold StackSpec
  rw [if_neg (by simp; omega), if_neg (by simp; omega), if_neg (by simp; omega), if_neg (by simp; omega), if_neg (by omega), if_neg (by omega), if_neg (by omega),
    if_neg (by omega), if_neg (by omega), if_neg (by omega), if_neg (by omega), if_neg (by omega)]
  by_cases hlt : o < 0x90
  · rw [if_pos ⟨ho.1, hlt⟩, if_pos hlt]
  · rw [if_neg (by omega), if_pos (by omega), if_neg hlt]

theorem Setting.out_dup (h : Setting L n T i o DUP_SWAP M M' S) (ho : o ∈ List.range' 0x80 32) : Outcome o (T i) (T (i + 1)) M M' S := by
  have hr := List.mem_range'_1.1 ho
  have hops := h.ops
  have hen := h.exec.enough
  unfold expectedOps at hops
  unfold needs at hen
  rw [if_neg (by simp; omega), if_neg (by simp; omega), if_neg (by simp; omega), if_neg (by omega), if_neg (by omega), if_neg (by omega), if_neg (by simp; omega)] at hops
  rw [if_neg (by simp; omega), if_neg (by simp; omega), if_neg (by simp; omega)] at hen
  by_cases hlt : o < 0x90
  · rw [if_pos ⟨hr.1, hlt⟩] at hops hen
    have hl := h.length (by omega) (by omega) (g := 3) (p := 0) (q := 1) (by
      unfold cost
      rw [if_neg (by simp; omega), if_neg (by simp; omega), if_neg (by simp; omega), if_neg (by simp; omega), if_neg (by omega), if_neg (by simp; omega), if_neg (by omega),
        if_neg (by omega), if_neg (by omega), if_neg (by simp; omega), if_neg (by omega), if_pos (by omega)])
    obtain ⟨A, a, B, hA, hS, hs, hf⟩ := dup_on h.exec.stack h.exec.words h.exec.fits (k := o - 0x80) (by omega) hops hl h.ctx
    refine ⟨a :: S, ?_, hs, hf.spec (by omega)⟩
    rw [dup_spec ho, if_pos hlt]
    exact ⟨A, a, B, hA, hS, rfl⟩
  · rw [if_neg (by omega), if_pos (by omega)] at hops hen
    have hl := h.length (by omega) (by omega) (g := 3) (p := 0) (q := 0) (by
      unfold cost
      rw [if_neg (by simp; omega), if_neg (by simp; omega), if_neg (by simp; omega), if_neg (by simp; omega), if_neg (by omega), if_neg (by simp; omega), if_neg (by omega),
        if_neg (by omega), if_neg (by omega), if_neg (by simp; omega), if_neg (by omega), if_neg (by omega), if_pos (by omega)])
    obtain ⟨a, A, b, B, hA, hS, hs, hf⟩ := swap_on h.exec.stack h.exec.words h.exec.fits (k := o - 0x90) (by omega) hops hl h.ctx
    refine ⟨_, ?_, hs, hf.spec (by omega)⟩
    rw [dup_spec ho, if_neg hlt]
    exact ⟨a, A, b, B, hA, hS, rfl⟩

theorem Setting.out_load (h : Setting L n T i 0xfb M_OP_GENERAL M M' S) : Outcome 0xfb (T i) (T (i + 1)) M M' S := by
  obtain ⟨a, R, hS, hs, hM⟩ := load_on h.exec.stack h.exec.words h.exec.enough h.ops (h.length (by decide) (by decide) (g := 0) (p := 1) (q := 1) (by decide)) h.ctx
  refine ⟨_, ⟨a, R, hS, rfl⟩, hs, ?_⟩
  rw [hM]
  exact Frame.spec Frame.refl (by decide)

theorem Setting.out_store (h : Setting L n T i 0xfc M_OP_GENERAL M M' S) (hl : T (i + 1) STACK_LEN = T i STACK_LEN - 2) :
    Outcome 0xfc (T i) (T (i + 1)) M M' S := by
  obtain ⟨v, a, R, hS, hs, hM⟩ := store_on h.exec.stack h.exec.words h.exec.enough h.exec.fits (h.exec.store rfl) h.ops hl h.ctx
  refine ⟨R, ⟨v, a, hS⟩, hs, ?_⟩
  intro x _
  rw [hM, hS, Function.update_apply]
  simp only [true_and, List.tail_cons, List.head?_cons, Option.map_some, Option.some.injEq, List.headD_cons, eq_comm]

/-- C95, the part that holds: every instruction of `machineOps` does to the stack and to memory what the specification says, given what `Guard` asks of
the CPU rows and `ArithGuard` of the arithmetic table, the divisor and the shift. All values in memory stay words. -/
theorem C95_machine_partial (sys : System L n T) (hi : i + 1 < n) (hm : o ∈ machineOps) (hx : Executes (T i) (T (i + 1)) o M M' S)
    (g : Guard o (T i) (T (i + 1))) (ga : ArithGuard sys.m sys.A o S) :
    (∃ S', StackSpec o (T i PC).val (T i CONTEXT).val M S S' ∧ OnStack M' (T (i + 1)) S' ∧ MemSpec o (T i CONTEXT) S M M') ∧ ∀ x, M' x < 2 ^ 256 := by
  refine ⟨?_, hx.runs.words hx.words⟩
  have hs := sys.cpu.step hi
  obtain ⟨f, hf, h1, hv⟩ := hx.valid
  have hop := hx.op
  have hv' : Valid f (op (T i)) (kernel (T i)) := by rw [hop]; exact hv
  have hctx : T (i + 1) CONTEXT = T i CONTEXT := by
    have := hs.contextSpec hf h1 hv'
    unfold ContextSpec at this
    rw [hop, if_neg (by rintro rfl; exact absurd hm (by decide))] at this
    exact this
  have hlen : o ≠ 0xfc → LenSpec o (T i) (T (i + 1)) := by
    intro hne
    have := hs.lenSpec h1 hv' (by rw [hop]; exact hne)
    rwa [hop] at this
  have hops : Runs M (expectedOps o (S.headD 0) (S.tail.headD 0) (T i) (T (i + 1))) M' := by
    have hr := hx.runs
    rw [hs.ops h1 hv' (a := S.headD 0) (b := S.tail.headD 0) ?_ ?_ (by rw [hop]; exact g), hop] at hr
    · exact hr
    · rw [hop]
      intro ho
      have hn : 1 ≤ needs o := by
        simp only [List.mem_cons, List.not_mem_nil, or_false] at ho
        rcases ho with rfl | rfl | rfl | rfl <;> decide
      obtain ⟨a, R, rfl⟩ := one_of (S := S) (le_trans hn hx.enough)
      exact hx.stack.top a rfl
    · rw [hop]
      rintro rfl
      obtain ⟨a, b, R, rfl⟩ := two_of (S := S) hx.enough
      unfold rowOps at hr
      rw [gp_read (g.cond rfl), List.append_assoc, List.append_assoc] at hr
      exact (second_on hx.stack hx.words rfl hr).1
  have set : Setting L n T i o f M M' S := ⟨hs, hx, h1, hctx, hlen, hops⟩
  clear hops hlen hctx hv' h1 hf hs
  obtain ⟨e, he, rfl, ho, _⟩ := hv
  simp only [instructionSet, List.mem_cons, List.not_mem_nil, or_false] at he
  rcases he with rfl | rfl | rfl | rfl | rfl | rfl | rfl | rfl | rfl | rfl | rfl | rfl | rfl | rfl | rfl | rfl | rfl | rfl | rfl
  · exact set.out_binary sys hi ga (by decide) ((show ∀ o ∈ [0x01, 0x02, 0x03, 0x04, 0x06, 0x10, 0x11, 0x1a], o ∈ [0x01, 0x02, 0x03, 0x04, 0x06, 0x0c, 0x0d, 0x0e, 0x10, 0x11, 0x1a] by decide) o ho)
  · exact set.out_ternary sys hi ga ((show ∀ o ∈ [0x08, 0x09], o ∈ [0x08, 0x09, 0x0f] by decide) o ho)
  · exact set.out_ternary sys hi ga ((show ∀ o ∈ [0x0f], o ∈ [0x08, 0x09, 0x0f] by decide) o ho)
  · exact set.out_binary sys hi ga (by decide) ((show ∀ o ∈ [0x0c, 0x0d, 0x0e], o ∈ [0x01, 0x02, 0x03, 0x04, 0x06, 0x0c, 0x0d, 0x0e, 0x10, 0x11, 0x1a] by decide) o ho)
  · simp only [List.mem_cons, List.not_mem_nil, or_false] at ho
    rcases ho with rfl | rfl
    · exact set.out_eq
    · exact set.out_iszero
  · exact set.out_logic sys hi ho
  · simp only [List.mem_cons, List.not_mem_nil, or_false] at ho
    rcases ho with rfl | rfl
    · exact set.out_not
    · exact set.out_pop
  · exact set.out_shift sys hi ga ho
  · simp only [List.mem_cons, List.not_mem_nil, or_false] at ho
    subst ho
    exact set.out_jumpdest
  · simp only [List.mem_cons, List.not_mem_nil, or_false] at ho
    subst ho
    exact absurd hm (by decide)
  · simp only [List.mem_cons, List.not_mem_nil, or_false] at ho
    rcases ho with rfl | rfl
    · exact set.out_jump
    · exact set.out_jumpi
  · exact absurd hm ((show ∀ o ∈ List.range' 0x60 32, o ∉ machineOps by decide) o ho)
  · simp only [List.mem_cons, List.not_mem_nil, or_false] at ho
    subst ho
    exact set.out_prover sys hi
  · exact set.out_dup ho
  · simp only [List.mem_cons, List.not_mem_nil, or_false] at ho
    rcases ho with rfl | rfl
    · exact set.out_get
    · exact absurd hm (by decide)
  · exact absurd hm ((show ∀ o ∈ List.range' 0xc0 32 ++ [0xf8], o ∉ machineOps by decide) o ho)
  · simp only [List.mem_cons, List.not_mem_nil, or_false] at ho
    subst ho
    exact set.out_exit
  · simp only [List.mem_cons, List.not_mem_nil, or_false] at ho
    rcases ho with rfl | rfl
    · exact set.out_load
    · exact set.out_store (g.store rfl).1
  · simp only [List.mem_cons, List.not_mem_nil, or_false] at ho
    rcases ho with rfl | rfl
    · exact set.out_pc
    · exact set.out_push0

end Verif.Stark.Cpu
