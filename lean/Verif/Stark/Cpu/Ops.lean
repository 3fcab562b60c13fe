import Verif.Stark.Cpu.Bus

/-! C94, the part that holds: the memory operations of every instruction, given that the channels its constraints leave free are not used. -/

namespace Verif.Stark.Cpu

variable {L : Labels} {lv nv : Row F}

/-- The instructions whose constraints leave channel 2 free. -/
def free2 (o : ℕ) : Prop :=
  o ∈ [0x01, 0x02, 0x03, 0x04, 0x06, 0x0c, 0x0d, 0x0e, 0x10, 0x11, 0x14, 0x15, 0x16, 0x17, 0x18, 0x19, 0x1a, 0x21, 0x58, 0x5f, 0xee] ∨
  (0x60 ≤ o ∧ o < 0x80) ∨ (0xc0 ≤ o ∧ o < 0xe0) ∨ o = 0xf8

/-- The instructions whose constraints leave channel 0 of the next row free. -/
def freeNext (o : ℕ) : Prop :=
  o ∈ [0x01, 0x02, 0x03, 0x04, 0x06, 0x08, 0x09, 0x0c, 0x0d, 0x0e, 0x0f, 0x10, 0x11, 0x14, 0x15, 0x16, 0x17, 0x18, 0x1a, 0x1b, 0x1c, 0x21, 0x58,
    0x5f, 0xee] ∨ (0x60 ≤ o ∧ o < 0x80) ∨ (0xc0 ≤ o ∧ o < 0xe0) ∨ o = 0xf8

instance (o : ℕ) : Decidable (free2 o) := by unfold free2; infer_instance
instance (o : ℕ) : Decidable (freeNext o) := by unfold freeNext; infer_instance

/-- What the constraints of `o` do not enforce but the generated tables do: channels the instruction has no use for are not used; the inverse
of the stack length by which POP, MSTORE_GENERAL and the context operations tell whether there is a top to read or write is given if
there is one; the condition of JUMPI is read from the stack; GET_CONTEXT writes the old top; MSTORE_GENERAL takes two elements. -/
structure Guard (o : ℕ) (lv nv : Row F) : Prop where
  two : free2 o → lv (USED 2) = 0
  next : freeNext o → nv (USED 0) = 0
  part : o = 0xf6 ∨ o = 0xf7 → lv P_USED = 0
  pop : o = 0x50 → lv STACK_LEN ≠ 1 → lv STACK_INV ≠ 0
  store : o = 0xfc → nv STACK_LEN = lv STACK_LEN - 2 ∧ (lv STACK_LEN ≠ 2 → lv STACK_INV ≠ 0)
  get : o = 0xf6 → (∀ k < 8, lv (VALUE 2 k) = lv (VALUE 0 k)) ∧ (lv STACK_LEN ≠ 0 → lv STACK_INV ≠ 0)
  set : o = 0xf7 → nv STACK_LEN ≠ 0 → lv STACK_INV ≠ 0
  cond : o = 0x57 → ReadsAt lv 1 (lv CONTEXT) SEG_STACK (lv STACK_LEN - 2)

/-! ### Channels and operations -/

theorem gp_read {r : Row F} {c : ℕ} {x s v : F} (h : ReadsAt r c x s v) : gpOps r c = [⟨1, x, s, v, value r c⟩] := by
  obtain ⟨h1, h2, h3, h4, h5⟩ := h
  unfold gpOps
  rw [if_pos h1, h2, h3, h4, h5]

theorem gp_write {r : Row F} {c : ℕ} {x s v : F} (h : WritesAt r c x s v) : gpOps r c = [⟨0, x, s, v, value r c⟩] := by
  obtain ⟨h1, h2, h3, h4, h5⟩ := h
  unfold gpOps
  rw [if_pos h1, h2, h3, h4, h5]

theorem gp_none {r : Row F} {c : ℕ} (h : r (USED c) = 0) : gpOps r c = [] := by
  unfold gpOps
  rw [if_neg (by rw [h]; exact zero_ne_one)]

theorem partial_write {r : Row F} {x s v : F} (h : PartialWrites r x s v) : partialOps r = [⟨0, x, s, v, value r 0⟩] := by
  obtain ⟨h1, h2, h3, h4, h5⟩ := h
  unfold partialOps
  rw [if_pos h1, h2, h3, h4, h5]

theorem partial_none {r : Row F} (h : r P_USED = 0) : partialOps r = [] := by
  unfold partialOps
  rw [if_neg (by rw [h]; exact zero_ne_one)]

theorem value_eq {r r' : Row F} {c c' : ℕ} (h : ∀ k < 8, r (VALUE c k) = r' (VALUE c' k)) : value r c = value r' c' :=
  List.map_congr_left (fun k hk => h k (List.mem_range.1 hk))

/-- The new top, read after `p` elements were taken off. -/
theorem top_ops {p : ℕ} (hlen : nv STACK_LEN + (p : F) = lv STACK_LEN) (hctx : nv CONTEXT = lv CONTEXT)
    (h1 : lv STACK_LEN ≠ (p : F) → TopRead nv) (h2 : lv STACK_LEN = (p : F) → nv (USED 0) = 0) : gpOps nv 0 = newTop lv nv p := by
  unfold newTop
  split
  · rename_i e
    exact gp_none (h2 e)
  · rename_i e
    have := h1 e
    unfold TopRead at this
    rw [hctx] at this
    rw [gp_read this]
    unfold rdStack
    have : nv STACK_LEN - 1 = lv STACK_LEN - (p : F) - 1 := by linear_combination hlen
    rw [this]

theorem spill_ops (h1 : lv STACK_LEN ≠ 0 → PartialWrites lv (lv CONTEXT) SEG_STACK (lv STACK_LEN - 1)) (h2 : lv STACK_LEN = 0 → lv P_USED = 0) :
    partialOps lv = spill lv := by
  unfold spill
  split
  · rename_i e
    exact partial_none (h2 e)
  · rename_i e
    exact partial_write (h1 e)

theorem used_bit (h : Step L lv nv) {c : ℕ} (hc : c < 3) : lv (USED c) = 0 ∨ lv (USED c) = 1 := by
  refine bit_of (h.get membus_mem (w := .always) ?_ (.inl rfl))
  unfold evalMembus
  exact List.mem_append_left _ (List.mem_append_right _ (List.mem_map.2 ⟨c, List.mem_range.2 hc, rfl⟩))

/-! ### Families of instructions -/

section
variable {φ : F}

/-- Two operands, one result. -/
theorem binary_ops (hφ : φ = 1) {b : Behavior} (hp : b.pops = 2) (h : Zero (evalOne lv nv φ b)) (h2 : lv (USED 2) = 0) (h0 : nv (USED 0) = 0) :
    rowOps lv nv = [rdStack lv (lv STACK_LEN - 2) (value lv 1)] := by
  unfold rowOps
  have := one_pops hφ h (i := 1) (le_refl _) (by omega)
  rw [gp_read this, gp_none h2, partial_none (one_partial hφ h (by omega)), gp_none h0]
  unfold rdStack
  norm_num

theorem ternary_ops (hφ : φ = 1) {b : Behavior} (hp : b.pops = 3) (h : Zero (evalOne lv nv φ b)) (h0 : nv (USED 0) = 0) :
    rowOps lv nv = [rdStack lv (lv STACK_LEN - 2) (value lv 1), rdStack lv (lv STACK_LEN - 3) (value lv 2)] := by
  unfold rowOps
  have e1 := one_pops hφ h (i := 1) (le_refl _) (by omega)
  have e2 := one_pops hφ h (i := 2) (by decide) (by omega)
  rw [gp_read e1, gp_read e2, partial_none (one_partial hφ h (by omega)), gp_none h0]
  unfold rdStack
  norm_num

theorem unary_ops (hφ : φ = 1) {b : Behavior} (hp : b.pops = 1) (hq : b.pushes = true) (hd : b.disableOthers = true) (h : Zero (evalOne lv nv φ b)) (h2 : lv (USED 2) = 0)
    (h0 : nv (USED 0) = 0) : rowOps lv nv = [] := by
  unfold rowOps
  rw [gp_none (one_disabled hφ h hd (c := 1) (le_refl _) (by omega) (by rw [hq]; decide)), gp_none h2, partial_none (one_partial hφ h (by omega)), gp_none h0]
  rfl

theorem push_ops (hφ : φ = 1) {b : Behavior} (hp : b.pops = 0) (hq : b.pushes = true) (h : Zero (evalOne lv nv φ b)) (h1 : lv (USED 1) = 0)
    (h2 : lv (USED 2) = 0) (h0 : nv (USED 0) = 0) : rowOps lv nv = spill lv := by
  unfold rowOps
  have := one_spill hφ h hp hq
  rw [gp_none h1, gp_none h2, spill_ops this.1 this.2, gp_none h0]
  simp

end

/-! ### Each flag -/

section
variable {a b : ℕ}

theorem bin_table : ∀ o ∈ [0x01, 0x02, 0x03, 0x04, 0x06, 0x10, 0x11, 0x1a, 0x0c, 0x0d, 0x0e, 0x14, 0x16, 0x17, 0x18, 0x21, 0xf8] ++ List.range' 0xc0 32,
    free2 o ∧ freeNext o ∧ o ∉ [0x08, 0x09, 0x0f] ∧ o ∉ [0x15, 0x19, 0x5b] ∧ o ∉ [0x1b, 0x1c] ∧ ¬ (o = 0x50 ∨ o = 0xf9) ∧ o ≠ 0x56 ∧ o ≠ 0x57 ∧
    ¬ (o ∈ [0x58, 0x5f, 0xee, 0xf6] ∨ (0x60 ≤ o ∧ o < 0x80)) ∧ ¬ (0x80 ≤ o ∧ o < 0x90) ∧ ¬ (0x90 ≤ o ∧ o < 0xa0) ∧ o ≠ 0xf7 ∧ o ≠ 0xfb ∧ o ≠ 0xfc := by
  decide

theorem ops_binary {o : ℕ} {φ : F} (g : Guard o lv nv) (hφ : φ = 1) {be : Behavior} (hp : be.pops = 2) (h : Zero (evalOne lv nv φ be))
    (ho : o ∈ [0x01, 0x02, 0x03, 0x04, 0x06, 0x10, 0x11, 0x1a, 0x0c, 0x0d, 0x0e, 0x14, 0x16, 0x17, 0x18, 0x21, 0xf8] ++ List.range' 0xc0 32) :
    rowOps lv nv = expectedOps o a b lv nv := by
  obtain ⟨h2, h0, e1, e2, e3, e4, e5, e6, e7, e8, e9, e10, e11, e12⟩ := bin_table o ho
  rw [binary_ops hφ hp h (g.two h2) (g.next h0)]
  unfold expectedOps
  rw [if_neg e1, if_neg e2, if_neg e3, if_neg e4, if_neg e5, if_neg e6, if_neg e7, if_neg e8, if_neg e9, if_neg e10, if_neg e11, if_neg e12]

theorem tern_table : ∀ o ∈ [0x08, 0x09, 0x0f], freeNext o := by decide

theorem ops_ternary {o : ℕ} {φ : F} (g : Guard o lv nv) (hφ : φ = 1) (h : Zero (evalOne lv nv φ ternaryOp)) (ho : o ∈ [0x08, 0x09, 0x0f]) :
    rowOps lv nv = expectedOps o a b lv nv := by
  rw [ternary_ops hφ rfl h (g.next (tern_table o ho))]
  unfold expectedOps
  rw [if_pos ho]

theorem un_table : ∀ o ∈ [0x15, 0x19], free2 o ∧ o ∉ [0x08, 0x09, 0x0f] ∧ o ∈ [0x15, 0x19, 0x5b] := by decide

theorem ops_unary {o : ℕ} {φ : F} (g : Guard o lv nv) (hφ : φ = 1) (h : Zero (evalOne lv nv φ unaryOp)) (h0 : nv (USED 0) = 0)
    (ho : o ∈ [0x15, 0x19]) : rowOps lv nv = expectedOps o a b lv nv := by
  obtain ⟨h2, e1, e2⟩ := un_table o ho
  rw [unary_ops hφ rfl rfl rfl h (g.two h2) h0]
  unfold expectedOps
  rw [if_neg e1, if_pos e2]

theorem push_table : ∀ o ∈ [0x58, 0x5f, 0xee] ++ List.range' 0x60 32,
    free2 o ∧ freeNext o ∧ o ∉ [0x08, 0x09, 0x0f] ∧ o ∉ [0x15, 0x19, 0x5b] ∧ o ∉ [0x1b, 0x1c] ∧ ¬ (o = 0x50 ∨ o = 0xf9) ∧ o ≠ 0x56 ∧ o ≠ 0x57 ∧
    (o ∈ [0x58, 0x5f, 0xee, 0xf6] ∨ (0x60 ≤ o ∧ o < 0x80)) := by
  decide

theorem ops_push {o : ℕ} {φ : F} (g : Guard o lv nv) (hφ : φ = 1) {be : Behavior} (hp : be.pops = 0) (hq : be.pushes = true) (hd : be.disableOthers = true)
    (h : Zero (evalOne lv nv φ be)) (ho : o ∈ [0x58, 0x5f, 0xee] ++ List.range' 0x60 32) : rowOps lv nv = expectedOps o a b lv nv := by
  obtain ⟨h2, h0, e1, e2, e3, e4, e5, e6, e7⟩ := push_table o ho
  rw [push_ops hφ hp hq h (one_disabled hφ h hd (c := 1) (le_refl _) (by omega) (by rw [hq]; decide)) (g.two h2) (g.next h0)]
  unfold expectedOps
  rw [if_neg e1, if_neg e2, if_neg e3, if_neg e4, if_neg e5, if_neg e6, if_pos e7]

theorem ops_jumpdest {φ : F} (hφ : φ = 1) (h : Zero (evalOne lv nv φ jumpdestOp)) : rowOps lv nv = expectedOps 0x5b a b lv nv := by
  obtain ⟨h1, h2, h3⟩ := one_same hφ h rfl rfl
  unfold rowOps
  rw [gp_none (one_disabled hφ h rfl (c := 1) (le_refl _) (by decide) (by decide)), gp_none (one_disabled hφ h rfl (c := 2) (by decide) (by decide) (by decide)),
    partial_none h3, gp_none h1]
  rfl

theorem ops_exit (h : Step L lv nv) (h1 : lv EXIT_KERNEL = 1) : rowOps lv nv = expectedOps 0xf9 a b lv nv := by
  have hz := h.behavior (f := EXIT_KERNEL) (b := ⟨1, false, true⟩) (by simp [stackBehaviors])
  obtain ⟨t1, t2⟩ := one_top h1 hz (by decide) rfl
  have hlen := one_len h1 hz
  unfold rowOps
  rw [gp_none (one_disabled h1 hz rfl (c := 1) (le_refl _) (by decide) (by decide)), gp_none (one_disabled h1 hz rfl (c := 2) (by decide) (by decide) (by decide)),
    partial_none (one_partial h1 hz (by decide)), top_ops (p := 1) (by simpa using hlen) (h.context (by decide) (by decide) h1) t1 t2]
  rfl


theorem one_bit (h : Step L lv nv) {i : ℕ} (hi : i < 8) {v : F} (hv : fbit (op lv) i = v) : lv (BIT i) = v := (h.always.op_bits.2.2 i hi).trans hv

theorem Step.not_next (h : Step L lv nv) (h1 : lv NOT_POP = 1) (hb : lv (BIT 0) = 1) : nv (USED 0) = 0 := by
  have g1 := h.popZero.alw (v := lv NOT_POP * (lv STACK_INV_AUX_2 - lv STACK_INV_AUX * (1 - lv (BIT 0)))) (by simp [evalPop])
  have g2 := h.popZero.alw (v := lv NOT_POP * (lv STACK_INV_AUX_2 - 1) * nv (USED 0)) (by simp [evalPop])
  rw [h1, hb] at g1
  rw [h1] at g2
  linear_combination g1 * nv (USED 0) - g2

theorem ops_pop (h : Step L lv nv) (h1 : lv NOT_POP = 1) (ho : op lv = 0x50) (g : Guard 0x50 lv nv) : rowOps lv nv = expectedOps 0x50 a b lv nv := by
  have hb : lv (BIT 0) = 0 := one_bit h (by decide) (by rw [ho]; decide)
  have hz := h.popZero
  have g1 := hz.alw (v := lv NOT_POP * ((lv STACK_LEN - 1) * lv STACK_INV - lv STACK_INV_AUX)) (by simp [evalPop])
  have g2 := hz.alw (v := lv NOT_POP * (lv STACK_INV_AUX_2 - lv STACK_INV_AUX * (1 - lv (BIT 0)))) (by simp [evalPop])
  have g3 := hz.alw (v := lv NOT_POP * (lv STACK_INV_AUX_2 - 1) * nv (USED 0)) (by simp [evalPop])
  have g4 := hz.alw (v := lv NOT_POP * (lv (BIT 0) - 1) * lv (USED 1)) (by simp [evalPop])
  have g5 := hz.alw (v := lv NOT_POP * (lv (BIT 0) - 1) * lv (USED 2)) (by simp [evalPop])
  have g6 := hz.alw (v := lv NOT_POP * (lv (BIT 0) - 1) * lv P_USED) (by simp [evalPop])
  have g7 := hz.tr (v := lv NOT_POP * (lv (BIT 0) - 1) * (nv STACK_LEN - lv STACK_LEN + 1)) (by simp [evalPop])
  have hr : Zero (readTop nv (lv NOT_POP * lv STACK_INV_AUX_2)) := fun c hc => hz c (List.mem_append_left _ (List.mem_append_right _ hc))
  rw [h1, one_mul] at g1 g2 hr
  rw [h1, hb] at g4 g5 g6 g7
  rw [h1] at g3
  rw [hb] at g2
  have haux : lv STACK_INV_AUX_2 = (lv STACK_LEN - 1) * lv STACK_INV := by linear_combination g2 - g1
  unfold rowOps
  rw [gp_none (c := 1) (by linear_combination -g4), gp_none (c := 2) (by linear_combination -g5), partial_none (by linear_combination -g6),
    top_ops (p := 1) (by push_cast; linear_combination -g7) (h.context (by decide) (by decide) h1)]
  · rfl
  · intro hne
    refine topRead_of ?_ hr
    rw [haux]
    refine mul_ne_zero (sub_ne_zero.2 ?_) (g.pop rfl ?_)
    · simpa using hne
    · simpa using hne
  · intro he
    rw [haux, he] at g3
    push_cast at g3
    linear_combination -g3

theorem Step.reads_dest (h : Step L lv nv) (h1 : lv JUMPS = 1) {d : ℕ} (hd : Holds lv 0 d) (hs : lv SHOULD_JUMP = 1) : gpOps lv 2 = jumpdestRead lv d := by
  have hlt := (h.jumped h1 hs hd).1
  have hz : Zero (evalJumps lv nv) := h.zero jumps_mem (fun c hc => List.mem_append_right _ hc)
  have g1 := hz.alw (v := lv JUMPS * (lv (USED 2) - lv SHOULD_JUMP * (1 - lv KERNEL_MODE))) (by simp [evalJumps])
  have g2 := hz.alw (v := lv JUMPS * (lv (IS_READ 2) - 1)) (by simp [evalJumps])
  have g3 := hz.alw (v := lv JUMPS * (lv (ADDR_CONTEXT 2) - lv CONTEXT)) (by simp [evalJumps])
  have g4 := hz.alw (v := lv JUMPS * (lv (ADDR_SEGMENT 2) - (SEG_JUMPDEST_BITS : ℕ))) (by simp [evalJumps])
  have g5 := hz.alw (v := lv JUMPS * (lv (ADDR_VIRTUAL 2) - lv (VALUE 0 0))) (by simp [evalJumps])
  rw [h1, one_mul] at g1 g2 g3 g4 g5
  rw [hs] at g1
  have hd0 := hd.2 0 (by decide)
  rw [show d / 2 ^ (32 * 0) % 2 ^ 32 = d from by rw [Nat.mul_zero, Nat.pow_zero, Nat.div_one, Nat.mod_eq_of_lt hlt]] at hd0
  unfold jumpdestRead
  split
  · rename_i hk
    exact gp_none (by rw [hk] at g1; linear_combination g1)
  · rename_i hk
    have hk0 := h.always.mode.resolve_right hk
    rw [gp_read ⟨by rw [hk0] at g1; linear_combination g1, sub_eq_zero.1 g2, sub_eq_zero.1 g3, sub_eq_zero.1 g4, (sub_eq_zero.1 g5).trans hd0⟩]

theorem Step.no_dest (h : Step L lv nv) (h1 : lv JUMPS = 1) (hs : lv SHOULD_JUMP = 0) : gpOps lv 2 = [] := by
  have hz : Zero (evalJumps lv nv) := h.zero jumps_mem (fun c hc => List.mem_append_right _ hc)
  have g1 := hz.alw (v := lv JUMPS * (lv (USED 2) - lv SHOULD_JUMP * (1 - lv KERNEL_MODE))) (by simp [evalJumps])
  rw [h1, hs] at g1
  exact gp_none (by linear_combination g1)

theorem Step.jump_top (h : Step L lv nv) (h1 : lv JUMPS = 1) {p : ℕ} (hp : 1 + lv (BIT 0) = (p : F)) (hlen : nv STACK_LEN + (p : F) = lv STACK_LEN) :
    gpOps nv 0 = newTop lv nv p := by
  have hz : Zero (evalJumps lv nv) := h.zero jumps_mem (fun c hc => List.mem_append_right _ hc)
  have hr : Zero (readTop nv ((lv STACK_LEN - 1 - lv (BIT 0)) * lv JUMPS)) := fun c hc => hz c (by
    unfold evalJumps
    simp only [List.mem_append]
    exact .inl (.inl (.inl hc)))
  have g1 := hz.alw (v := lv JUMPS * ((lv STACK_LEN - 1 - lv (BIT 0)) * lv STACK_INV - lv STACK_INV_AUX)) (by simp [evalJumps])
  have g2 := hz.tr (v := lv JUMPS * (lv STACK_INV_AUX - 1) * nv (USED 0)) (by simp [evalJumps])
  have hd : lv STACK_LEN - 1 - lv (BIT 0) = lv STACK_LEN - (p : F) := by linear_combination -hp
  rw [hd] at hr g1
  rw [h1] at g1 g2
  refine top_ops hlen (h.context (by decide) (by decide) h1) (fun hne => ?_) (fun he => ?_)
  · exact topRead_of (by rw [h1, mul_one]; exact sub_ne_zero.2 hne) hr
  · rw [he] at g1
    linear_combination -g2 - g1 * nv (USED 0)

theorem Step.should_jump (h : Step L lv nv) (h1 : lv JUMPS = 1) (ho : op lv = 0x56) : lv SHOULD_JUMP = 1 := by
  have hb0 : lv (BIT 0) = 0 := one_bit h (by decide) (by rw [ho]; decide)
  have hz : Zero (evalJumps lv nv) := h.zero jumps_mem (fun c hc => List.mem_append_right _ hc)
  have v0 := hz.alw (v := lv JUMPS * (1 - lv (BIT 0)) * (lv (VALUE 1 0) - 1)) (by simp [evalJumps])
  rw [h1, hb0] at v0
  have vk : ∀ k, 1 ≤ k → k < 8 → lv (VALUE 1 k) = 0 := by
    intro k hk hk8
    have := hz.alw (v := lv JUMPS * (1 - lv (BIT 0)) * lv (VALUE 1 k)) (by
      unfold evalJumps
      simp only [List.mem_append]
      exact .inl (.inr (List.mem_map.2 ⟨k, List.mem_range'_1.2 ⟨hk, by omega⟩, rfl⟩)))
    rw [h1, hb0] at this
    linear_combination this
  have hsum : ((List.range 8).map (fun k => lv (VALUE 1 k))).sum = 1 := by
    simp only [List.range_succ, List.range_zero, List.nil_append, List.map_append, List.map_cons, List.map_nil, List.sum_append, List.sum_cons, List.sum_nil]
    rw [vk 1 (by decide) (by decide), vk 2 (by decide) (by decide), vk 3 (by decide) (by decide), vk 4 (by decide) (by decide), vk 5 (by decide) (by decide),
      vk 6 (by decide) (by decide), vk 7 (by decide) (by decide)]
    linear_combination v0
  have g := hz.alw (v := lv JUMPS * (lv SHOULD_JUMP - 1) * ((List.range 8).map (fun k => lv (VALUE 1 k))).sum) (by simp [evalJumps])
  rw [h1, hsum] at g
  linear_combination g

theorem ops_jump (h : Step L lv nv) (h1 : lv JUMPS = 1) (ho : op lv = 0x56) (ha : Holds lv 0 a) : rowOps lv nv = expectedOps 0x56 a b lv nv := by
  have hb0 : lv (BIT 0) = 0 := one_bit h (by decide) (by rw [ho]; decide)
  have hz : Zero (evalJumps lv nv) := h.zero jumps_mem (fun c hc => List.mem_append_right _ hc)
  have g1 := hz.alw (v := lv JUMPS * (1 - lv (BIT 0)) * lv (USED 1)) (by simp [evalJumps])
  have g2 := hz.alw (v := lv JUMPS * lv P_USED) (by simp [evalJumps])
  have g3 := hz.tr (v := lv JUMPS * (1 - lv (BIT 0)) * (nv STACK_LEN - lv STACK_LEN + 1)) (by simp [evalJumps])
  rw [h1, hb0] at g1 g3
  rw [h1] at g2
  unfold rowOps
  rw [gp_none (c := 1) (by linear_combination g1), h.reads_dest h1 ha (h.should_jump h1 ho), partial_none (by linear_combination g2),
    h.jump_top h1 (p := 1) (by rw [hb0]; push_cast; ring) (by push_cast; linear_combination g3)]
  simp [expectedOps]

theorem Step.jumpi_flag (h : Step L lv nv) (h1 : lv JUMPS = 1) {c : ℕ} (hc : Holds lv 1 c) : lv SHOULD_JUMP = if c = 0 then 0 else 1 := by
  have hz : Zero (evalJumps lv nv) := h.zero jumps_mem (fun c hc => List.mem_append_right _ hc)
  have g := hz.alw (v := lv JUMPS * (lv SHOULD_JUMP - 1) * ((List.range 8).map (fun k => lv (VALUE 1 k))).sum) (by simp [evalJumps])
  have g' := hz.alw (v := lv JUMPS * (lv COND_SUM_PINV * ((List.range 8).map (fun k => lv (VALUE 1 k))).sum - lv SHOULD_JUMP)) (by simp [evalJumps])
  rw [h1, one_mul] at g g'
  split
  · rename_i e
    subst e
    have : ((List.range 8).map (fun k => lv (VALUE 1 k))).sum = 0 := sum_zero (fun k hk => by
      have := hc.2 k (List.mem_range.1 hk)
      simpa using this)
    rw [this] at g'
    linear_combination -g'
  · rename_i e
    rcases mul_eq_zero.1 g with g | g
    · exact sub_eq_zero.1 g
    · refine absurd (small_of hc.1 8 (le_refl _) (fun k _ hk => ?_)) (by simpa using e)
      exact limbs_zero hc (l := List.range 8) (by simp) (by simp) g k (by simpa using hk)

theorem ops_jumpi (h : Step L lv nv) (h1 : lv JUMPS = 1) (ho : op lv = 0x57) (g : Guard 0x57 lv nv) (ha : Holds lv 0 a) (hb : Holds lv 1 b) :
    rowOps lv nv = expectedOps 0x57 a b lv nv := by
  have hb0 : lv (BIT 0) = 1 := one_bit h (by decide) (by rw [ho]; decide)
  have hz : Zero (evalJumps lv nv) := h.zero jumps_mem (fun c hc => List.mem_append_right _ hc)
  have g2 := hz.alw (v := lv JUMPS * lv P_USED) (by simp [evalJumps])
  have g3 := hz.tr (v := lv JUMPS * lv (BIT 0) * (nv STACK_LEN - lv STACK_LEN + 2)) (by simp [evalJumps])
  rw [h1, hb0] at g3
  rw [h1] at g2
  have hj := h.jumpi_flag h1 hb
  have h2 : gpOps lv 2 = if b = 0 then [] else jumpdestRead lv a := by
    split at hj <;> rename_i e
    · rw [if_pos e, h.no_dest h1 hj]
    · rw [if_neg e, h.reads_dest h1 ha hj]
  unfold rowOps
  rw [gp_read (g.cond rfl), h2, partial_none (by linear_combination g2),
    h.jump_top h1 (p := 2) (by rw [hb0]; push_cast; ring) (by push_cast; linear_combination g3)]
  simp [expectedOps, rdStack]

/-! ### Memory, context and shifts -/

theorem channel_of {filter isRead offset : F} {c : ℕ} (hf : filter = 1) (h : Zero (constrainChannel lv isRead filter offset c)) :
    lv (USED c) = 1 ∧ lv (IS_READ c) = isRead ∧ lv (ADDR_CONTEXT c) = lv CONTEXT ∧ lv (ADDR_SEGMENT c) = SEG_STACK ∧
    lv (ADDR_VIRTUAL c) = lv STACK_LEN - 1 - offset := by
  have get : ∀ v : F, (⟨.always, filter * v⟩ : Constr F) ∈ constrainChannel lv isRead filter offset c → v = 0 := fun v hv => by
    have := h.alw hv
    rw [hf, one_mul] at this
    exact this
  exact ⟨sub_eq_zero.1 (get _ (by simp [constrainChannel])), sub_eq_zero.1 (get _ (by simp [constrainChannel])), sub_eq_zero.1 (get _ (by simp [constrainChannel])),
    sub_eq_zero.1 (get _ (by simp [constrainChannel])), sub_eq_zero.1 (get _ (by simp [constrainChannel]))⟩

theorem limbs8_of {φ : F} (hφ : φ = 1) {x y : ℕ → F} (h : Zero (limbs8 (fun k => φ * (x k - y k)))) : ∀ k < 8, x k = y k := by
  intro k hk
  have := h.alw (v := φ * (x k - y k)) (List.mem_map.2 ⟨k, List.mem_range.2 hk, rfl⟩)
  rw [hφ, one_mul] at this
  exact sub_eq_zero.1 this

theorem dup_table : ∀ o ∈ List.range' 0x80 32, fbit o 4 = (if o < 0x90 then 0 else 1) ∧
    fbit o 0 + fbit o 1 * 2 + fbit o 2 * 4 + fbit o 3 * 8 = (if o < 0x90 then ((o - 0x80 : ℕ) : F) else ((o - 0x90 : ℕ) : F)) ∧
    o ∉ [0x08, 0x09, 0x0f] ∧ o ∉ [0x15, 0x19, 0x5b] ∧ o ∉ [0x1b, 0x1c] ∧ ¬ (o = 0x50 ∨ o = 0xf9) ∧ o ≠ 0x56 ∧ o ≠ 0x57 ∧
    ¬ (o ∈ [0x58, 0x5f, 0xee, 0xf6] ∨ (0x60 ≤ o ∧ o < 0x80)) := by
  decide +kernel

theorem ops_dup (h : Step L lv nv) (h1 : lv DUP_SWAP = 1) (ho : op lv ∈ List.range' 0x80 32) : rowOps lv nv = expectedOps (op lv) a b lv nv := by
  obtain ⟨b4, bn, e1, e2, e3, e4, e5, e6, e7⟩ := dup_table _ ho
  have hr := List.mem_range'_1.1 ho
  have bit : ∀ i < 8, lv (BIT i) = fbit (op lv) i := h.always.op_bits.2.2
  rw [← bit 4 (by decide)] at b4
  rw [← bit 0 (by decide), ← bit 1 (by decide), ← bit 2 (by decide), ← bit 3 (by decide)] at bn
  have hp := h.get dup_mem (w := .always) (v := lv DUP_SWAP * lv P_USED) (by simp [evalDupSwap]) (.inl rfl)
  rw [h1, one_mul] at hp
  unfold expectedOps
  rw [if_neg e1, if_neg e2, if_neg e3, if_neg e4, if_neg e5, if_neg e6, if_neg e7]
  by_cases hlt : op lv < 0x90
  · rw [if_pos hlt] at b4 bn
    rw [if_pos ⟨hr.1, hlt⟩]
    have hφ : lv DUP_SWAP * (1 - lv (BIT 4)) = 1 := by rw [h1, b4]; ring
    have hz : Zero (evalDup lv nv (lv (BIT 0) + lv (BIT 1) * 2 + lv (BIT 2) * 4 + lv (BIT 3) * 8)) :=
      h.zero dup_mem (fun c hc => List.mem_append_left _ (List.mem_append_left _ hc))
    rw [bn] at hz
    have hn := hz.right.alw (v := lv DUP_SWAP * (1 - lv (BIT 4)) * nv (USED 0)) (by simp)
    rw [hφ, one_mul] at hn
    obtain ⟨p1, p2, p3, p4, p5⟩ := channel_of hφ hz.left.left.left.right
    obtain ⟨q1, q2, q3, q4, q5⟩ := channel_of hφ hz.left.right
    unfold rowOps
    rw [gp_write ⟨p1, p2, p3, p4, p5⟩, gp_read ⟨q1, q2, q3, q4, q5⟩, partial_none hp, gp_none hn,
      value_eq (limbs8_of hφ hz.left.left.left.left), value_eq (limbs8_of hφ hz.left.left.right), sub_zero]
    rfl
  · rw [if_neg hlt] at b4 bn
    rw [if_neg (by omega), if_pos (by omega)]
    have hφ : lv DUP_SWAP * lv (BIT 4) = 1 := by rw [h1, b4]; ring
    have hz : Zero (evalSwap lv nv (lv (BIT 0) + lv (BIT 1) * 2 + lv (BIT 2) * 4 + lv (BIT 3) * 8)) :=
      h.zero dup_mem (fun c hc => List.mem_append_left _ (List.mem_append_right _ hc))
    rw [bn] at hz
    have hn := hz.right.alw (v := lv DUP_SWAP * lv (BIT 4) * nv (USED 0)) (by simp)
    rw [hφ, one_mul] at hn
    obtain ⟨p1, p2, p3, p4, p5⟩ := channel_of hφ hz.left.left.left.right
    obtain ⟨q1, q2, q3, q4, q5⟩ := channel_of hφ hz.left.right
    have hv : lv STACK_LEN - 1 - (((op lv - 0x90 : ℕ) : F) + 1) = lv STACK_LEN - 2 - ((op lv - 0x90 : ℕ) : F) := by ring
    unfold rowOps
    rw [gp_write ⟨p1, p2, p3, p4, p5⟩, gp_read ⟨q1, q2, q3, q4, q5⟩, partial_none hp, gp_none hn,
      ← value_eq (limbs8_of hφ hz.left.left.left.left), value_eq (limbs8_of hφ hz.left.left.right), hv]
    rfl

theorem ops_get (h : Step L lv nv) (h1 : lv CONTEXT_OP = 1) (ho : op lv = 0xf6) (g : Guard 0xf6 lv nv) : rowOps lv nv = expectedOps 0xf6 a b lv nv := by
  have hb0 : lv (BIT 0) = 0 := one_bit h (by decide) (by rw [ho]; decide)
  have hz : Zero (evalContext lv nv) := h.zero context_mem (fun c hc => hc)
  have g1 := hz.alw (v := lv CONTEXT_OP * (1 - lv (BIT 0)) * lv (USED 1)) (by simp [evalContext, evalContextGet])
  have g2 := hz.alw (v := lv CONTEXT_OP * (1 - lv (BIT 0)) * nv (USED 0)) (by simp [evalContext, evalContextGet])
  have g3 := hz.alw (v := lv CONTEXT_OP * (1 - lv (BIT 0)) * (nv STACK_LEN - (lv STACK_LEN + 1))) (by simp [evalContext, evalContextGet])
  have g4 := hz.alw (v := lv CONTEXT_OP * ((nv STACK_LEN - (1 - lv (BIT 0))) * lv STACK_INV - lv STACK_INV_AUX)) (by simp [evalContext])
  have g5 := hz.alw (v := lv CONTEXT_OP * (lv STACK_INV_AUX - lv (USED 2))) (by simp [evalContext])
  have g6 := hz.alw (v := lv CONTEXT_OP * lv STACK_INV_AUX * (lv (IS_READ 2) - lv (BIT 0))) (by simp [evalContext])
  have g7 := hz.alw (v := lv CONTEXT_OP * lv STACK_INV_AUX * (lv (ADDR_CONTEXT 2) - nv CONTEXT)) (by simp [evalContext])
  have g8 := hz.alw (v := lv CONTEXT_OP * lv STACK_INV_AUX * (lv (ADDR_SEGMENT 2) - (SEG_STACK : ℕ))) (by simp [evalContext])
  have g9 := hz.alw (v := lv CONTEXT_OP * lv STACK_INV_AUX * (lv (ADDR_VIRTUAL 2) - (nv STACK_LEN - (1 - lv (BIT 0)) - 1))) (by simp [evalContext])
  have g10 := hz.tr (v := lv CONTEXT_OP * (lv (BIT 0) - 1) * (nv CONTEXT - lv CONTEXT)) (by simp [evalContext, evalContextKeep])
  rw [h1, hb0] at g1 g2 g3 g4 g6 g9 g10
  rw [h1] at g5 g7 g8
  have hl : nv STACK_LEN = lv STACK_LEN + 1 := by linear_combination g3
  have hc : nv CONTEXT = lv CONTEXT := by linear_combination -g10
  have hu : lv (USED 2) = lv STACK_LEN * lv STACK_INV := by rw [hl] at g4; linear_combination -g4 - g5
  have ha : lv STACK_INV_AUX = lv (USED 2) := by linear_combination g5
  have h2 : gpOps lv 2 = spill lv := by
    unfold spill
    split
    · rename_i e
      exact gp_none (by rw [hu, e]; ring)
    · rename_i e
      have h1' : lv (USED 2) = 1 := (used_bit h (c := 2) (by decide)).resolve_left (by
        rw [hu]
        exact mul_ne_zero e ((g.get rfl).2 e))
      rw [ha, h1', one_mul, one_mul] at g6 g7 g8 g9
      have hw : WritesAt lv 2 (lv CONTEXT) SEG_STACK (lv STACK_LEN - 1) :=
        ⟨h1', by linear_combination g6, (sub_eq_zero.1 g7).trans hc, sub_eq_zero.1 g8, by linear_combination g9 + hl⟩
      rw [gp_write hw,
        value_eq (g.get rfl).1]
      rfl
  unfold rowOps
  rw [gp_none (c := 1) (by linear_combination g1), h2, partial_none (g.part (.inl rfl)), gp_none (c := 0) (by linear_combination g2)]
  simp [expectedOps]

theorem ops_set (h : Step L lv nv) (h1 : lv CONTEXT_OP = 1) (ho : op lv = 0xf7) (g : Guard 0xf7 lv nv) : rowOps lv nv = expectedOps 0xf7 a b lv nv := by
  have hb0 : lv (BIT 0) = 1 := one_bit h (by decide) (by rw [ho]; decide)
  have hz : Zero (evalContext lv nv) := h.zero context_mem (fun c hc => hc)
  have g1 := hz.alw (v := lv CONTEXT_OP * lv (BIT 0) * lv (USED 1)) (by simp [evalContext, evalContextSet])
  have g2 := hz.alw (v := lv CONTEXT_OP * lv (BIT 0) * nv (USED 0)) (by simp [evalContext, evalContextSet])
  have g3 := hz.alw (v := lv CONTEXT_OP * (lv STACK_INV_AUX * lv (BIT 0) - lv STACK_INV_AUX_2)) (by simp [evalContext, evalContextSet])
  have g4 := hz.alw (v := lv CONTEXT_OP * ((nv STACK_LEN - (1 - lv (BIT 0))) * lv STACK_INV - lv STACK_INV_AUX)) (by simp [evalContext])
  have g5 := hz.alw (v := lv CONTEXT_OP * (lv STACK_INV_AUX - lv (USED 2))) (by simp [evalContext])
  have g6 := hz.alw (v := lv CONTEXT_OP * lv STACK_INV_AUX * (lv (IS_READ 2) - lv (BIT 0))) (by simp [evalContext])
  have g7 := hz.alw (v := lv CONTEXT_OP * lv STACK_INV_AUX * (lv (ADDR_CONTEXT 2) - nv CONTEXT)) (by simp [evalContext])
  have g8 := hz.alw (v := lv CONTEXT_OP * lv STACK_INV_AUX * (lv (ADDR_SEGMENT 2) - (SEG_STACK : ℕ))) (by simp [evalContext])
  have g9 := hz.alw (v := lv CONTEXT_OP * lv STACK_INV_AUX * (lv (ADDR_VIRTUAL 2) - (nv STACK_LEN - (1 - lv (BIT 0)) - 1))) (by simp [evalContext])
  have g10 := hz.alw (v := lv CONTEXT_OP * lv (BIT 0) * (lv (VALUE 0 2) - nv CONTEXT)) (by simp [evalContext, evalContextSet])
  have gv : Zero (limbs8 (fun k => lv CONTEXT_OP * lv STACK_INV_AUX_2 * (nv (VALUE 0 k) - lv (VALUE 2 k)))) := fun c hc => hz c (by
    unfold evalContext evalContextSet
    exact List.mem_append_left _ (List.mem_append_right _ (List.mem_append_left _ (List.mem_append_right _ hc))))
  rw [h1, hb0] at g1 g2 g3 g4 g6 g9 g10
  rw [h1] at g5 g7 g8
  have hc : nv CONTEXT = lv (VALUE 0 2) := by linear_combination -g10
  have hu : lv (USED 2) = nv STACK_LEN * lv STACK_INV := by linear_combination -g4 - g5
  have ha : lv STACK_INV_AUX = lv (USED 2) := by linear_combination g5
  have h2 : gpOps lv 2 = if nv STACK_LEN = 0 then [] else [⟨1, lv (VALUE 0 2), SEG_STACK, nv STACK_LEN - 1, value nv 0⟩] := by
    split
    · rename_i e
      exact gp_none (by rw [hu, e]; ring)
    · rename_i e
      have h1' : lv (USED 2) = 1 := (used_bit h (c := 2) (by decide)).resolve_left (by
        rw [hu]
        exact mul_ne_zero e (g.set rfl e))
      rw [ha, h1', one_mul, one_mul] at g6 g7 g8 g9
      rw [ha, h1'] at g3
      have := limbs8_of (φ := lv CONTEXT_OP * lv STACK_INV_AUX_2) (by rw [h1]; linear_combination -g3) gv
      have hw : ReadsAt lv 2 (lv (VALUE 0 2)) SEG_STACK (nv STACK_LEN - 1) :=
        ⟨h1', by linear_combination g6, (sub_eq_zero.1 g7).trans hc, sub_eq_zero.1 g8, by linear_combination g9⟩
      rw [gp_read hw, ← value_eq this]
  unfold rowOps
  rw [gp_none (c := 1) (by linear_combination g1), h2, partial_none (g.part (.inr rfl)), gp_none (c := 0) (by linear_combination g2)]
  simp [expectedOps]

theorem ops_load (h : Step L lv nv) (h1 : lv M_OP_GENERAL = 1) (ho : op lv = 0xfb) : rowOps lv nv = expectedOps 0xfb a b lv nv := by
  have hb0 : lv (BIT 0) = 1 := one_bit h (by decide) (by rw [ho]; decide)
  have hz : Zero (evalLoad lv nv) := h.zero memio_mem (fun c hc => List.mem_append_left _ hc)
  have g0 := h.get memio_mem (w := .always) (v := lv M_OP_GENERAL * lv (BIT 0) * nv (USED 0)) (by simp [evalStore]) (.inl rfl)
  have hφ : lv M_OP_GENERAL * lv (BIT 0) = 1 := by rw [h1, hb0, one_mul]
  have get : ∀ v : F, (⟨.always, lv M_OP_GENERAL * lv (BIT 0) * v⟩ : Constr F) ∈ evalLoad lv nv → v = 0 := fun v hv => by
    have := hz.alw hv
    rw [hφ, one_mul] at this
    exact this
  have gv := limbs8_of (x := fun k => lv (VALUE 1 k)) (y := fun k => nv (VALUE 0 k)) hφ hz.left.left.right
  rw [hφ, one_mul] at g0
  have hr : ReadsAt lv 1 (lv (VALUE 0 2)) (lv (VALUE 0 1)) (lv (VALUE 0 0)) :=
    ⟨sub_eq_zero.1 (get _ (by simp [evalLoad])), sub_eq_zero.1 (get _ (by simp [evalLoad])), sub_eq_zero.1 (get _ (by simp [evalLoad])),
      sub_eq_zero.1 (get _ (by simp [evalLoad])), sub_eq_zero.1 (get _ (by simp [evalLoad]))⟩
  unfold rowOps
  rw [gp_read hr, gp_none (c := 2) (get _ (by simp [evalLoad])),
      partial_none (get _ (by simp [evalLoad])), gp_none g0, value_eq gv]
  simp [expectedOps]

theorem ops_store (h : Step L lv nv) (h1 : lv M_OP_GENERAL = 1) (ho : op lv = 0xfc) (g : Guard 0xfc lv nv) : rowOps lv nv = expectedOps 0xfc a b lv nv := by
  have hb0 : lv (BIT 0) = 0 := one_bit h (by decide) (by rw [ho]; decide)
  have hz : Zero (evalStore lv nv) := h.zero memio_mem (fun c hc => List.mem_append_right _ hc)
  have get : ∀ v : F, (⟨.always, lv M_OP_GENERAL * (lv (BIT 0) - 1) * v⟩ : Constr F) ∈ evalStore lv nv → v = 0 := fun v hv => by
    have := hz.alw hv
    rw [h1, hb0] at this
    linear_combination -this
  have g1 := hz.alw (v := lv M_OP_GENERAL * ((lv STACK_LEN - 2) * lv STACK_INV - lv STACK_INV_AUX)) (by simp [evalStore])
  have g2 := hz.alw (v := lv M_OP_GENERAL * (lv STACK_INV_AUX_2 - lv STACK_INV_AUX * (1 - lv (BIT 0)))) (by simp [evalStore])
  have g3 := hz.alw (v := lv M_OP_GENERAL * (lv STACK_INV_AUX - 1) * nv (USED 0)) (by simp [evalStore])
  have hr : Zero (readTop nv (lv M_OP_GENERAL * lv STACK_INV_AUX_2)) := fun c hc => hz c (List.mem_append_left _ (List.mem_append_right _ hc))
  rw [h1, one_mul] at g1 g2 hr
  rw [h1] at g3
  rw [hb0] at g2
  have haux : lv STACK_INV_AUX_2 = (lv STACK_LEN - 2) * lv STACK_INV := by linear_combination g2 - g1
  have htop : gpOps nv 0 = newTop lv nv 2 := by
    refine top_ops (p := 2) (by rw [(g.store rfl).1]; push_cast; ring) (h.context (by decide) (by decide) h1) (fun hne => ?_) (fun he => ?_)
    · push_cast at hne
      refine topRead_of ?_ hr
      rw [haux]
      exact mul_ne_zero (sub_ne_zero.2 hne) ((g.store rfl).2 hne)
    · push_cast at he
      rw [he] at g1
      linear_combination -g3 - g1 * nv (USED 0)
  have hrd : ReadsAt lv 1 (lv CONTEXT) SEG_STACK (lv STACK_LEN - 2) :=
    ⟨sub_eq_zero.1 (get _ (by simp [evalStore])), sub_eq_zero.1 (get _ (by simp [evalStore])), sub_eq_zero.1 (get _ (by simp [evalStore])),
      sub_eq_zero.1 (get _ (by simp [evalStore])), sub_eq_zero.1 (get _ (by simp [evalStore]))⟩
  have hpw : PartialWrites lv (lv (VALUE 1 2)) (lv (VALUE 1 1)) (lv (VALUE 1 0)) :=
    ⟨sub_eq_zero.1 (get _ (by simp [evalStore])), get _ (by simp [evalStore]), sub_eq_zero.1 (get _ (by simp [evalStore])),
      sub_eq_zero.1 (get _ (by simp [evalStore])), sub_eq_zero.1 (get _ (by simp [evalStore]))⟩
  unfold rowOps
  rw [gp_read hrd, gp_none (c := 2) (get _ (by simp [evalStore])), partial_write hpw, htop]
  simp [expectedOps, rdStack]

theorem ops_shift (h : Step L lv nv) (h1 : lv SHIFT = 1) (ho : op lv ∈ [0x1b, 0x1c]) (g : Guard (op lv) lv nv) (ha : Holds lv 0 a) :
    rowOps lv nv = expectedOps (op lv) a b lv nv := by
  have hz : Zero (evalShift lv) := h.zero shift_mem (fun c hc => hc)
  have hs := h.behavior (f := SHIFT) (b := ⟨2, true, false⟩) (by simp [stackBehaviors])
  have g1 := hz.alw (v := lv SHIFT * lv (USED 2) * (lv (IS_READ 2) - 1)) (by simp [evalShift])
  have g2 := hz.alw (v := lv SHIFT * (((List.range' 1 7).map (fun k => lv (VALUE 0 k))).sum * lv HIGH_LIMB_SUM_INV - (1 - lv (USED 2)))) (by simp [evalShift])
  have g3 := hz.alw (v := lv SHIFT * ((List.range' 1 7).map (fun k => lv (VALUE 0 k))).sum * lv (USED 2)) (by simp [evalShift])
  have g4 := hz.alw (v := lv SHIFT * lv (ADDR_CONTEXT 2)) (by simp [evalShift])
  have g5 := hz.alw (v := lv SHIFT * (lv (ADDR_SEGMENT 2) - (SEG_SHIFT_TABLE : ℕ))) (by simp [evalShift])
  have g6 := hz.alw (v := lv SHIFT * (lv (ADDR_VIRTUAL 2) - lv (VALUE 0 0))) (by simp [evalShift])
  rw [h1, one_mul] at g1 g2 g3 g4 g5 g6
  have h2 : gpOps lv 2 = if a < 2 ^ 32 then [⟨1, 0, SEG_SHIFT_TABLE, (a : F), value lv 2⟩] else [] := by
    split
    · rename_i hlt
      have hsum : ((List.range' 1 7).map (fun k => lv (VALUE 0 k))).sum = 0 := sum_zero (fun k hk => by
        have hk' := List.mem_range'_1.1 hk
        rw [ha.2 k (by omega), Nat.div_eq_of_lt (lt_of_lt_of_le hlt (Nat.pow_le_pow_right (by decide) (by omega)))]
        simp)
      rw [hsum] at g2
      have hu : lv (USED 2) = 1 := by linear_combination g2
      rw [hu, one_mul] at g1
      have ha0 := ha.2 0 (by decide)
      rw [show a / 2 ^ (32 * 0) % 2 ^ 32 = a from by rw [Nat.mul_zero, Nat.pow_zero, Nat.div_one, Nat.mod_eq_of_lt hlt]] at ha0
      rw [gp_read ⟨hu, sub_eq_zero.1 g1, g4, sub_eq_zero.1 g5, (sub_eq_zero.1 g6).trans ha0⟩]
    · rename_i hge
      refine gp_none ((mul_eq_zero.1 g3).resolve_left (fun hsum => hge ?_))
      have hzs := limbs_zero ha (l := List.range' 1 7) (by decide) (by decide) hsum
      exact small_of ha.1 7 (by decide) (fun k hk1 hk2 => hzs k (List.mem_range'_1.2 ⟨by omega, by omega⟩))
  have tab : ∀ o ∈ [0x1b, 0x1c], freeNext o ∧ o ∉ [0x08, 0x09, 0x0f] ∧ o ∉ [0x15, 0x19, 0x5b] := by decide
  obtain ⟨h0, e1, e2⟩ := tab _ ho
  unfold rowOps expectedOps
  rw [if_neg e1, if_neg e2, if_pos ho, gp_read (one_pops h1 hs (i := 1) (le_refl _) (by decide)), h2, partial_none (one_partial h1 hs (by decide)),
    gp_none (g.next h0)]
  simp [rdStack]

/-! ### All of them -/

theorem pad_used (h : Always L lv nv) (hp : Padding lv) {c : ℕ} (hc : c < 3) : lv (USED c) = 0 := by
  have := h.get halt_mem (v := (1 - cycle lv) * lv (USED c)) (by
    unfold evalHalt
    exact List.mem_append_left _ (List.mem_append_right _ (List.mem_map.2 ⟨c, List.mem_range.2 hc, rfl⟩)))
  rw [cycle_pad hp] at this
  linear_combination this

/-- The memory operations of an executed row. -/
theorem Step.ops (hs : Step L lv nv) {f : ℕ} (h1 : lv f = 1) {k : Bool} (hv : Valid f (op lv) k) (ha : op lv ∈ [0x1b, 0x1c, 0x56, 0x57] → Holds lv 0 a)
    (hb : op lv = 0x57 → Holds lv 1 b) (g : Guard (op lv) lv nv) : rowOps lv nv = expectedOps (op lv) a b lv nv := by
  have bit : ∀ j < 8, lv (BIT j) = fbit (op lv) j := hs.always.op_bits.2.2
  obtain ⟨e, he, rfl, ho, _⟩ := hv
  simp only [instructionSet, List.mem_cons, List.not_mem_nil, or_false] at he
  rcases he with rfl | rfl | rfl | rfl | rfl | rfl | rfl | rfl | rfl | rfl | rfl | rfl | rfl | rfl | rfl | rfl | rfl | rfl | rfl
  · exact ops_binary g h1 rfl (hs.behavior (f := BINARY) (b := binaryOp) (by simp [stackBehaviors])) (by revert ho; generalize op lv = o; revert o; decide)
  · exact ops_ternary g h1 (hs.behavior (f := TERNARY) (b := ternaryOp) (by simp [stackBehaviors])) (by revert ho; generalize op lv = o; revert o; decide)
  · exact ops_ternary g h1 (hs.behavior (f := TERNARY) (b := ternaryOp) (by simp [stackBehaviors])) (by revert ho; generalize op lv = o; revert o; decide)
  · exact ops_binary g h1 rfl (hs.behavior (f := FP254) (b := binaryOp) (by simp [stackBehaviors])) (by revert ho; generalize op lv = o; revert o; decide)
  · simp only [List.mem_cons, List.not_mem_nil, or_false] at ho
    have h1' : lv EQ_ISZERO = 1 := h1
    rcases ho with ho | ho
    · exact ops_binary g (by rw [h1', bit 0 (by decide), ho, show fbit 0x14 0 = 0 from by decide]; ring) rfl hs.eqOne (by rw [ho]; decide)
    · refine ops_unary g (by rw [h1', bit 0 (by decide), ho, show fbit 0x15 0 = 1 from by decide]; ring) hs.iszeroOne (g.next ?_) (by rw [ho]; decide)
      rw [ho]
      decide
  · exact ops_binary g h1 rfl (hs.behavior (f := LOGIC) (b := binaryOp) (by simp [stackBehaviors])) (by revert ho; generalize op lv = o; revert o; decide)
  · simp only [List.mem_cons, List.not_mem_nil, or_false] at ho
    have h1' : lv NOT_POP = 1 := h1
    rcases ho with ho | ho
    · have hb0 : lv (BIT 0) = 1 := by rw [bit 0 (by decide), ho]; decide
      exact ops_unary g (by rw [h1', hb0]; ring) hs.notOne (hs.not_next h1 hb0) (by rw [ho]; decide)
    · rw [ho] at g ⊢
      exact ops_pop hs h1 ho g
  · exact ops_shift hs h1 ho g (ha (by revert ho; generalize op lv = o; revert o; decide))
  · simp only [List.mem_cons, List.not_mem_nil, or_false] at ho
    have h1' : lv JUMPDEST_KECCAK = 1 := h1
    rw [ho]
    exact ops_jumpdest (by rw [h1', bit 1 (by decide), ho, show fbit 0x5b 1 = 1 from by decide]; ring) hs.jumpdestOne
  · simp only [List.mem_cons, List.not_mem_nil, or_false] at ho
    have h1' : lv JUMPDEST_KECCAK = 1 := h1
    exact ops_binary g (by rw [h1', bit 1 (by decide), ho, show fbit 0x21 1 = 0 from by decide]; ring) rfl hs.keccakOne (by rw [ho]; decide)
  · simp only [List.mem_cons, List.not_mem_nil, or_false] at ho
    rcases ho with ho | ho
    · rw [ho]
      exact ops_jump hs h1 ho (ha (by rw [ho]; decide))
    · rw [ho] at g ha hb ⊢
      exact ops_jumpi hs h1 ho g (ha (by decide)) (hb rfl)
  · exact ops_push g h1 rfl rfl rfl (hs.behavior (f := PUSH_PROVER) (b := ⟨0, true, true⟩) (by simp [stackBehaviors])) (List.mem_append_right _ ho)
  · exact ops_push g h1 rfl rfl rfl (hs.behavior (f := PUSH_PROVER) (b := ⟨0, true, true⟩) (by simp [stackBehaviors])) (by revert ho; generalize op lv = o; revert o; decide)
  · exact ops_dup hs h1 ho
  · simp only [List.mem_cons, List.not_mem_nil, or_false] at ho
    rcases ho with ho | ho
    · rw [ho] at g ⊢
      exact ops_get hs h1 ho g
    · rw [ho] at g ⊢
      exact ops_set hs h1 ho g
  · exact ops_binary g h1 rfl (hs.behavior (f := M_OP_32) (b := ⟨2, true, false⟩) (by simp [stackBehaviors])) (by revert ho; generalize op lv = o; revert o; decide)
  · simp only [List.mem_cons, List.not_mem_nil, or_false] at ho
    rw [ho]
    exact ops_exit hs h1
  · simp only [List.mem_cons, List.not_mem_nil, or_false] at ho
    rcases ho with ho | ho
    · rw [ho]
      exact ops_load hs h1 ho
    · rw [ho] at g ⊢
      exact ops_store hs h1 ho g
  · exact ops_push g h1 rfl rfl rfl (hs.behavior (f := PC_PUSH0) (b := ⟨0, true, true⟩) (by simp [stackBehaviors])) (by revert ho; generalize op lv = o; revert o; decide)

/-- C94, the part that holds: a row makes the memory operations of the instruction it executes, given what `Guard` asks; a padding row
makes none but that of its partial channel; a jump in user mode reads a one as the bit of its destination. -/
theorem C94_ops_partial {n : ℕ} {T : ℕ → Row F} (h : Accepted L n T) {i : ℕ} (hi : i + 1 < n) :
    (Padding (T i) → rowOps (T i) (T (i + 1)) = partialOps (T i)) ∧
    (T i JUMPS = 1 → T i (VALUE 2 0) = 1) ∧
    ∀ f ∈ flags, T i f = 1 → Valid f (op (T i)) (kernel (T i)) → ∀ a b, (op (T i) ∈ [0x1b, 0x1c, 0x56, 0x57] → Holds (T i) 0 a) → (op (T i) = 0x57 → Holds (T i) 1 b) →
      Guard (op (T i)) (T i) (T (i + 1)) →
      rowOps (T i) (T (i + 1)) = expectedOps (op (T i)) a b (T i) (T (i + 1)) := by
  refine ⟨fun hp => ?_, fun hj => ?_, fun f hf h1 hv a b ha hb g => ?_⟩
  · have h0 := h.always (i := i) (by omega)
    have h2 := h.always (i := i + 1) hi
    unfold rowOps
    rw [gp_none (pad_used h0 hp (c := 1) (by decide)), gp_none (pad_used h0 hp (c := 2) (by decide)), gp_none (pad_used h2 (h.pad_next hi hp) (c := 0) (by decide))]
    simp
  · have := (h.step hi).get jumps_mem (w := .always) (v := T i JUMPS * (T i (VALUE 2 0) - 1)) (by simp [evalJumps]) (.inl rfl)
    rw [hj] at this
    linear_combination this
  · exact (h.step hi).ops h1 hv ha hb g

end

/-! ### Examples -/

/-- POP with 77 left on the stack, then JUMPDEST, then the end. -/
def popRows : List (List (ℕ × ℕ)) :=
  [[(PC, 98), (STACK_LEN, 2), (KERNEL_MODE, 1), (NOT_POP, 1), (CLOCK, 1), (STACK_INV, 1), (STACK_INV_AUX, 1), (STACK_INV_AUX_2, 1)] ++ opBits 0x50 ++ vals 0 5,
   [(PC, 99), (STACK_LEN, 1), (KERNEL_MODE, 1), (JUMPDEST_KECCAK, 1), (CLOCK, 2), (GAS, 2)] ++ opBits 0x5b ++ vals 0 77 ++ readStack 0 0,
   padRow 3 ++ [(STACK_LEN, 1), (GAS, 3)] ++ vals 0 77]

theorem pop_accepted : Accepted labels 3 (mkTable popRows) := mkTable_accepted (rows := popRows) (by decide +kernel)

theorem holds_of {rows : List (List (ℕ × ℕ))} {i c a : ℕ} (ha : a < 2 ^ 256)
    (h : ∀ k < 8, mkTable rows i (VALUE c k) = ((a / 2 ^ (32 * k) % 2 ^ 32 : ℕ) : F)) : Holds (mkTable rows i) c a := ⟨ha, h⟩

/-- The hypotheses of `C94_ops_partial` are met: POP reads the new top. -/
example : rowOps (mkTable popRows 0) (mkTable popRows 1) = [rdStack (mkTable popRows 0) 0 (value (mkTable popRows 1) 0)] := by
  have ho : op (mkTable popRows 0) = 0x50 := by decide +kernel
  have := (C94_ops_partial pop_accepted (i := 0) (by decide)).2.2 NOT_POP (by decide) (by decide +kernel) (by decide +kernel) 0 0
    (by rw [ho]; exact fun e => absurd e (by decide)) (by rw [ho]; exact fun e => absurd e (by decide)) (by
      rw [ho]
      exact ⟨by decide, by decide, by decide, fun _ _ => by decide +kernel, by decide, by decide, by decide, fun e => absurd e (by decide)⟩)
  rw [this, ho]
  have hl : mkTable popRows 0 STACK_LEN = 2 := by decide +kernel
  simp only [expectedOps, newTop, hl]
  norm_num
  decide +kernel

/-- POP with 77 left on the stack, but the new top is not read: it is 1234. -/
def freeTopRows : List (List (ℕ × ℕ)) :=
  [[(PC, 99), (STACK_LEN, 2), (KERNEL_MODE, 1), (NOT_POP, 1), (CLOCK, 1)] ++ opBits 0x50 ++ vals 0 5,
   padRow 2 ++ [(STACK_LEN, 1), (GAS, 2)] ++ vals 0 1234]

theorem freeTop_accepted : Accepted labels 2 (mkTable freeTopRows) := mkTable_accepted (rows := freeTopRows) (by decide +kernel)

/-- C94 fails for executed instructions: after POP the new top need not be read, and is free. -/
theorem C94_violated_pop : ¬ C94_statement := by
  intro h
  have := (h labels 2 _ freeTop_accepted 0 (by decide)).2 NOT_POP (by decide) (by decide +kernel) (by decide +kernel) 5 0
    (holds_of (by decide) (by decide +kernel)) (holds_of (by decide) (by decide +kernel))
  rw [show op (mkTable freeTopRows 0) = 0x50 from by decide +kernel] at this
  have hl : mkTable freeTopRows 0 STACK_LEN = 2 := by decide +kernel
  simp only [expectedOps, newTop, hl] at this
  have h0 : rowOps (mkTable freeTopRows 0) (mkTable freeTopRows 1) = [] := by
    unfold rowOps
    rw [gp_none (by decide +kernel), gp_none (by decide +kernel), partial_none (by decide +kernel), gp_none (by decide +kernel)]
    rfl
  rw [h0] at this
  revert this
  norm_num
  decide +kernel

end Verif.Stark.Cpu
