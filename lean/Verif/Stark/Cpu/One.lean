import Verif.Stark.Cpu.Flow

/-! What the shared stack constraints (`stack::eval_packed_one`) enforce. -/

namespace Verif.Stark.Cpu

variable {L : Labels} {lv nv : Row F}

/-- The constraints in `l` hold in a row that is not the last. -/
def Zero (l : List (Constr F)) : Prop := ∀ c ∈ l, c.on = .always ∨ c.on = .transition → c.val = 0

theorem Step.zero (h : Step L lv nv) {g : List (Constr F)} (hg : g ∈ groups L lv nv) {l : List (Constr F)} (hl : ∀ c ∈ l, c ∈ g) : Zero l :=
  fun c hc hw => h c (mem_group hg (hl c hc)) hw

theorem Zero.alw {l : List (Constr F)} (h : Zero l) {v : F} (hv : (⟨.always, v⟩ : Constr F) ∈ l) : v = 0 := h _ hv (.inl rfl)
theorem Zero.tr {l : List (Constr F)} (h : Zero l) {v : F} (hv : (⟨.transition, v⟩ : Constr F) ∈ l) : v = 0 := h _ hv (.inr rfl)
theorem Zero.left {l l' : List (Constr F)} (h : Zero (l ++ l')) : Zero l := fun c hc => h c (List.mem_append_left _ hc)
theorem Zero.right {l l' : List (Constr F)} (h : Zero (l ++ l')) : Zero l' := fun c hc => h c (List.mem_append_right _ hc)

/-- Channel `c` of the row reads the given address. -/
def ReadsAt (r : Row F) (c : ℕ) (ctx seg virt : F) : Prop :=
  r (USED c) = 1 ∧ r (IS_READ c) = 1 ∧ r (ADDR_CONTEXT c) = ctx ∧ r (ADDR_SEGMENT c) = seg ∧ r (ADDR_VIRTUAL c) = virt

/-- Channel `c` of the row writes the given address. -/
def WritesAt (r : Row F) (c : ℕ) (ctx seg virt : F) : Prop :=
  r (USED c) = 1 ∧ r (IS_READ c) = 0 ∧ r (ADDR_CONTEXT c) = ctx ∧ r (ADDR_SEGMENT c) = seg ∧ r (ADDR_VIRTUAL c) = virt

/-- The partial channel of the row writes the given address. -/
def PartialWrites (r : Row F) (ctx seg virt : F) : Prop :=
  r P_USED = 1 ∧ r P_IS_READ = 0 ∧ r P_ADDR_CONTEXT = ctx ∧ r P_ADDR_SEGMENT = seg ∧ r P_ADDR_VIRTUAL = virt

/-- The next row reads the new top of the stack in channel 0. -/
def TopRead (nv : Row F) : Prop := ReadsAt nv 0 (nv CONTEXT) SEG_STACK (nv STACK_LEN - 1)

theorem topRead_of {φ : F} (hφ : φ ≠ 0) (h : Zero (readTop nv φ)) : TopRead nv := by
  have get : ∀ v : F, (⟨.transition, φ * v⟩ : Constr F) ∈ readTop nv φ → v = 0 := fun v hv => (mul_eq_zero.1 (h.tr hv)).resolve_left hφ
  exact ⟨sub_eq_zero.1 (get _ (by simp [readTop])), sub_eq_zero.1 (get _ (by simp [readTop])), sub_eq_zero.1 (get _ (by simp [readTop])),
    sub_eq_zero.1 (get _ (by simp [readTop])), sub_eq_zero.1 (get _ (by simp [readTop]))⟩

section
variable {φ : F} {b : Behavior}

theorem one_len (hφ : φ = 1) (h : Zero (evalOne lv nv φ b)) : nv STACK_LEN + (b.pops : F) = lv STACK_LEN + (b.pushes.toNat : F) := by
  have := h.tr (v := φ * (nv STACK_LEN - (lv STACK_LEN - (b.pops : F) + (b.pushes.toNat : F)))) (by simp [evalOne])
  rw [hφ, one_mul] at this
  linear_combination this

/-- The stack constraints of an operation with `b.pops` operands: all but the first are read from the stack. -/
theorem one_pops (hφ : φ = 1) (h : Zero (evalOne lv nv φ b)) {i : ℕ} (h1 : 1 ≤ i) (h2 : i < b.pops) :
    ReadsAt lv i (lv CONTEXT) SEG_STACK (lv STACK_LEN - ((i + 1 : ℕ) : F)) := by
  have hpos : b.pops > 0 := by omega
  have get : ∀ v : F, (⟨.always, φ * v⟩ : Constr F) ∈ [⟨.always, φ * (lv (USED i) - 1)⟩,
       ⟨.always, φ * (lv (IS_READ i) - 1)⟩,
       ⟨.always, φ * (lv (ADDR_CONTEXT i) - lv CONTEXT)⟩,
       ⟨.always, φ * (lv (ADDR_SEGMENT i) - SEG_STACK)⟩,
       (⟨.always, φ * (lv (ADDR_VIRTUAL i) - (lv STACK_LEN - ((i + 1 : ℕ) : F)))⟩ : Constr F)] → v = 0 := by
    intro v hv
    have := h.alw (v := φ * v) (by
      unfold evalOne
      rw [if_pos hpos]
      refine List.mem_append_left _ (List.mem_append_left _ (List.mem_append_left _ (List.mem_append_left _ (List.mem_flatMap.2 ⟨i, ?_, hv⟩))))
      rw [List.mem_range'_1]
      omega)
    rw [hφ, one_mul] at this
    exact this
  exact ⟨sub_eq_zero.1 (get _ (by simp)), sub_eq_zero.1 (get _ (by simp)), sub_eq_zero.1 (get _ (by simp)), sub_eq_zero.1 (get _ (by simp)),
    sub_eq_zero.1 (get _ (by simp))⟩

theorem one_partial (hφ : φ = 1) (h : Zero (evalOne lv nv φ b)) (hp : 0 < b.pops) : lv P_USED = 0 := by
  have := h.alw (v := φ * lv P_USED) (by unfold evalOne; rw [if_pos hp]; simp)
  rw [hφ, one_mul] at this
  exact this

/-- Pops without a push: the new top is read unless the stack is then empty. -/
theorem one_top (hφ : φ = 1) (h : Zero (evalOne lv nv φ b)) (hp : 0 < b.pops) (hq : b.pushes = false) :
    (lv STACK_LEN ≠ (b.pops : F) → TopRead nv) ∧ (lv STACK_LEN = (b.pops : F) → nv (USED 0) = 0) := by
  have hl : Zero (readTop nv ((lv STACK_LEN - (b.pops : F)) * φ) ++
      [⟨.always, φ * ((lv STACK_LEN - (b.pops : F)) * lv STACK_INV - lv STACK_INV_AUX)⟩,
       ⟨.transition, φ * (lv STACK_INV_AUX - 1) * nv (USED 0)⟩]) := by
    intro c hc
    refine h c ?_
    unfold evalOne
    rw [if_pos hp]
    refine List.mem_append_left _ (List.mem_append_left _ (List.mem_append_right _ ?_))
    rw [hq]
    exact hc
  constructor
  · intro hne
    exact topRead_of (by rw [hφ, mul_one]; exact sub_ne_zero.2 hne) hl.left
  · intro he
    have h1 := hl.right.alw (v := φ * ((lv STACK_LEN - (b.pops : F)) * lv STACK_INV - lv STACK_INV_AUX)) (by simp)
    have h2 := hl.right.tr (v := φ * (lv STACK_INV_AUX - 1) * nv (USED 0)) (by simp)
    rw [hφ, he] at h1
    rw [hφ] at h2
    linear_combination -h2 - h1 * nv (USED 0)

/-- A push without pops: the old top is written unless the stack was empty. -/
theorem one_spill (hφ : φ = 1) (h : Zero (evalOne lv nv φ b)) (hp : b.pops = 0) (hq : b.pushes = true) :
    (lv STACK_LEN ≠ 0 → PartialWrites lv (lv CONTEXT) SEG_STACK (lv STACK_LEN - 1)) ∧ (lv STACK_LEN = 0 → lv P_USED = 0) := by
  have hl : Zero [⟨.always, lv STACK_LEN * φ * (lv P_USED - 1)⟩,
     ⟨.always, lv STACK_LEN * φ * lv P_IS_READ⟩,
     ⟨.always, lv STACK_LEN * φ * (lv P_ADDR_CONTEXT - lv CONTEXT)⟩,
     ⟨.always, lv STACK_LEN * φ * (lv P_ADDR_SEGMENT - SEG_STACK)⟩,
     ⟨.always, lv STACK_LEN * φ * (lv P_ADDR_VIRTUAL - (lv STACK_LEN - 1))⟩,
     ⟨.always, φ * (lv STACK_LEN * lv STACK_INV - lv STACK_INV_AUX)⟩,
     ⟨.always, φ * (lv STACK_INV_AUX - 1) * lv P_USED⟩] := by
    intro c hc
    refine h c ?_
    unfold evalOne
    rw [if_neg (by omega), if_pos hq]
    exact List.mem_append_left _ (List.mem_append_left _ hc)
  constructor
  · intro hne
    have hne' : lv STACK_LEN * φ ≠ 0 := by rw [hφ, mul_one]; exact hne
    have get : ∀ v : F, (⟨.always, lv STACK_LEN * φ * v⟩ : Constr F) ∈ _ → v = 0 := fun v hv => (mul_eq_zero.1 (hl.alw hv)).resolve_left hne'
    exact ⟨sub_eq_zero.1 (get _ (by simp)), get _ (by simp), sub_eq_zero.1 (get _ (by simp)), sub_eq_zero.1 (get _ (by simp)),
      sub_eq_zero.1 (get _ (by simp))⟩
  · intro he
    have h1 := hl.alw (v := φ * (lv STACK_LEN * lv STACK_INV - lv STACK_INV_AUX)) (by simp)
    have h2 := hl.alw (v := φ * (lv STACK_INV_AUX - 1) * lv P_USED) (by simp)
    rw [hφ, he] at h1
    rw [hφ] at h2
    linear_combination -h2 - h1 * lv P_USED

/-- Neither pops nor pushes: the top stays. -/
theorem one_same (hφ : φ = 1) (h : Zero (evalOne lv nv φ b)) (hp : b.pops = 0) (hq : b.pushes = false) :
    nv (USED 0) = 0 ∧ (∀ k < 8, nv (VALUE 0 k) = lv (VALUE 0 k)) ∧ lv P_USED = 0 := by
  have hl : Zero ([⟨.always, φ * nv (USED 0)⟩] ++
    limbs8 (fun k => φ * (lv (VALUE 0 k) - nv (VALUE 0 k))) ++
    [⟨.always, φ * lv P_USED⟩]) := by
    intro c hc
    refine h c ?_
    unfold evalOne
    rw [if_neg (by omega), if_neg (by rw [hq]; decide)]
    exact List.mem_append_left _ (List.mem_append_left _ hc)
  have get : ∀ v : F, (⟨.always, φ * v⟩ : Constr F) ∈ _ → v = 0 := fun v hv => by
    have := hl.alw hv
    rw [hφ, one_mul] at this
    exact this
  refine ⟨get _ (by simp), fun k hk => ?_, get _ (by simp)⟩
  have := get (lv (VALUE 0 k) - nv (VALUE 0 k)) (List.mem_append_left _ (List.mem_append_right _ (List.mem_map.2 ⟨k, List.mem_range.2 hk, rfl⟩)))
  exact (sub_eq_zero.1 this).symm

theorem one_disabled (hφ : φ = 1) (h : Zero (evalOne lv nv φ b)) (hd : b.disableOthers = true) {c : ℕ} (h1 : 1 ≤ c) (h2 : b.pops ≤ c)
    (h3 : c + b.pushes.toNat < 3) : lv (USED c) = 0 := by
  have := h.alw (v := φ * lv (USED c)) (by
    unfold evalOne
    refine List.mem_append_left _ (List.mem_append_right _ ?_)
    rw [if_pos hd]
    refine List.mem_map.2 ⟨c, ?_, rfl⟩
    rw [List.mem_range'_1]
    simp only [NUM_GP_CHANNELS]
    omega)
  rw [hφ, one_mul] at this
  exact this

end

theorem Step.behavior (h : Step L lv nv) {f : ℕ} {b : Behavior} (hb : (f, b) ∈ stackBehaviors) : Zero (evalOne lv nv (lv f) b) := by
  refine h.zero stack_mem (fun c hc => ?_)
  unfold evalStack
  refine List.mem_append_left _ (List.mem_append_left _ (List.mem_append_left _ (List.mem_append_left _ (List.mem_flatMap.2 ⟨(f, b), hb, hc⟩))))

theorem Step.jumpdestOne (h : Step L lv nv) : Zero (evalOne lv nv (lv JUMPDEST_KECCAK * lv (BIT 1)) jumpdestOp) := by
  refine h.zero stack_mem (fun c hc => ?_)
  unfold evalStack
  exact List.mem_append_left _ (List.mem_append_left _ (List.mem_append_right _ hc))

theorem Step.keccakOne (h : Step L lv nv) : Zero (evalOne lv nv (lv JUMPDEST_KECCAK * (1 - lv (BIT 1))) binaryOp) := by
  refine h.zero stack_mem (fun c hc => ?_)
  unfold evalStack
  exact List.mem_append_left _ (List.mem_append_right _ hc)

theorem Step.popZero (h : Step L lv nv) : Zero (evalPop lv nv) := by
  refine h.zero stack_mem (fun c hc => ?_)
  unfold evalStack
  exact List.mem_append_right _ hc

theorem Step.notOne (h : Step L lv nv) : Zero (evalOne lv nv (lv NOT_POP * lv (BIT 0)) unaryOp) := by
  refine h.zero logic_mem (fun c hc => ?_)
  exact List.mem_append_left _ (List.mem_append_right _ hc)

theorem Step.eqOne (h : Step L lv nv) : Zero (evalOne lv nv (lv EQ_ISZERO * (1 - lv (BIT 0))) binaryOp) := by
  refine h.zero logic_mem (fun c hc => ?_)
  unfold evalEqIszero
  exact List.mem_append_right _ (List.mem_append_left _ (List.mem_append_right _ hc))

theorem Step.iszeroOne (h : Step L lv nv) : Zero (evalOne lv nv (lv EQ_ISZERO * lv (BIT 0)) unaryOp) := by
  refine h.zero logic_mem (fun c hc => ?_)
  unfold evalEqIszero
  exact List.mem_append_right _ (List.mem_append_right _ hc)

theorem Step.mloadOne (h : Step L lv nv) : Zero (evalOne lv nv (lv M_OP_GENERAL * lv (BIT 0)) mloadGeneralOp) := by
  refine h.zero memio_mem (fun c hc => ?_)
  unfold evalLoad
  exact List.mem_append_left _ (List.mem_append_right _ hc)

/-! ### Stack length -/

/-- Pops and pushes in terms of the code. -/
def lenOf (f o : ℕ) : Option (ℕ × ℕ) :=
  if f = JUMPDEST_KECCAK then (if o.testBit 1 then some (0, 0) else some (2, 1))
  else if f = NOT_POP then (if o.testBit 0 then some (1, 1) else some (1, 0))
  else if f = EQ_ISZERO then (if o.testBit 0 then some (1, 1) else some (2, 1))
  else if f = JUMPS then (if o.testBit 0 then some (2, 0) else some (1, 0))
  else if f = DUP_SWAP then (if o.testBit 4 then some (0, 0) else some (0, 1))
  else if f = CONTEXT_OP then (if o.testBit 0 then none else some (0, 1))
  else if f = M_OP_GENERAL then (if o.testBit 0 then some (1, 1) else none)
  else (stackBehaviors.lookup f).map (fun b => (b.pops, b.pushes.toNat))

theorem Step.len (h : Step L lv nv) {f : ℕ} (h1 : lv f = 1) {p q : ℕ} (hl : lenOf f (op lv) = some (p, q)) :
    nv STACK_LEN + (p : F) = lv STACK_LEN + (q : F) := by
  obtain ⟨_, _, hb⟩ := h.always.op_bits
  have bit : ∀ i < 8, lv (BIT i) = if (op lv).testBit i then 1 else 0 := hb
  unfold lenOf at hl
  split at hl
  · rename_i e; subst e
    split at hl <;> rename_i hbit <;> simp only [Option.some.injEq, Prod.mk.injEq] at hl <;> obtain ⟨rfl, rfl⟩ := hl
    · exact one_len (by rw [h1, bit 1 (by decide), if_pos hbit, mul_one]) h.jumpdestOne
    · exact one_len (by rw [h1, bit 1 (by decide), if_neg hbit]; ring) h.keccakOne
  split at hl
  · rename_i e; subst e
    split at hl <;> rename_i hbit <;> simp only [Option.some.injEq, Prod.mk.injEq] at hl <;> obtain ⟨rfl, rfl⟩ := hl
    · exact one_len (by rw [h1, bit 0 (by decide), if_pos hbit, mul_one]) h.notOne
    · have := h.popZero.tr (v := lv NOT_POP * (lv (BIT 0) - 1) * (nv STACK_LEN - lv STACK_LEN + 1)) (by simp [evalPop])
      rw [h1, bit 0 (by decide), if_neg hbit] at this
      push_cast
      linear_combination -this
  split at hl
  · rename_i e; subst e
    split at hl <;> rename_i hbit <;> simp only [Option.some.injEq, Prod.mk.injEq] at hl <;> obtain ⟨rfl, rfl⟩ := hl
    · exact one_len (by rw [h1, bit 0 (by decide), if_pos hbit, mul_one]) h.iszeroOne
    · exact one_len (by rw [h1, bit 0 (by decide), if_neg hbit]; ring) h.eqOne
  split at hl
  · rename_i e; subst e
    have j1 := h.get jumps_mem (w := .transition) (v := lv JUMPS * (1 - lv (BIT 0)) * (nv STACK_LEN - lv STACK_LEN + 1)) (by simp [evalJumps]) (.inr rfl)
    have j2 := h.get jumps_mem (w := .transition) (v := lv JUMPS * lv (BIT 0) * (nv STACK_LEN - lv STACK_LEN + 2)) (by simp [evalJumps]) (.inr rfl)
    rw [h1, bit 0 (by decide)] at j1 j2
    split at hl <;> rename_i hbit <;> simp only [Option.some.injEq, Prod.mk.injEq] at hl <;> obtain ⟨rfl, rfl⟩ := hl
    · rw [if_pos hbit] at j2
      push_cast
      linear_combination j2
    · rw [if_neg hbit] at j1
      push_cast
      linear_combination j1
  split at hl
  · rename_i e; subst e
    have j1 := h.get dup_mem (w := .transition) (v := lv DUP_SWAP * (1 - lv (BIT 4)) * (nv STACK_LEN - lv STACK_LEN - 1)) (by simp [evalDupSwap, evalDup]) (.inr rfl)
    have j2 := h.get dup_mem (w := .always) (v := lv DUP_SWAP * lv (BIT 4) * (nv STACK_LEN - lv STACK_LEN)) (by simp [evalDupSwap, evalSwap]) (.inl rfl)
    rw [h1, bit 4 (by decide)] at j1 j2
    split at hl <;> rename_i hbit <;> simp only [Option.some.injEq, Prod.mk.injEq] at hl <;> obtain ⟨rfl, rfl⟩ := hl
    · rw [if_pos hbit] at j2
      push_cast
      linear_combination j2
    · rw [if_neg hbit] at j1
      push_cast
      linear_combination j1
  split at hl
  · rename_i e; subst e
    have j1 := h.get context_mem (w := .always) (v := lv CONTEXT_OP * (1 - lv (BIT 0)) * (nv STACK_LEN - (lv STACK_LEN + 1)))
      (by simp [evalContext, evalContextGet]) (.inl rfl)
    rw [h1, bit 0 (by decide)] at j1
    split at hl <;> rename_i hbit
    · exact absurd hl (by simp)
    · simp only [Option.some.injEq, Prod.mk.injEq] at hl
      obtain ⟨rfl, rfl⟩ := hl
      rw [if_neg hbit] at j1
      push_cast
      linear_combination j1
  split at hl
  · rename_i e; subst e
    split at hl <;> rename_i hbit
    · simp only [Option.some.injEq, Prod.mk.injEq] at hl
      obtain ⟨rfl, rfl⟩ := hl
      exact one_len (by rw [h1, bit 0 (by decide), if_pos hbit, mul_one]) h.mloadOne
    · exact absurd hl (by simp)
  · obtain ⟨b, hb, e⟩ := Option.map_eq_some_iff.1 hl
    simp only [Prod.mk.injEq] at e
    obtain ⟨rfl, rfl⟩ := e
    have hmem : (f, b) ∈ stackBehaviors := by
      obtain ⟨l1, l2, e, _⟩ := List.lookup_eq_some_iff.1 hb
      rw [e]
      simp
    exact one_len h1 (h.behavior hmem)

theorem len_table : ∀ e ∈ instructionSet, ∀ o ∈ e.2.1, o = 0xfc ∨ (o = 0xf7 ∧ cost o = none) ∨
    (o = 0xf9 ∧ lenOf e.1 o = some (1, 0)) ∨ (o ≠ 0xf9 ∧ lenOf e.1 o = (cost o).map (·.2)) := by decide +kernel

/-- The stack length, but for MSTORE_GENERAL. -/
theorem Step.lenSpec (h : Step L lv nv) {f : ℕ} (h1 : lv f = 1) {k : Bool} (hv : Valid f (op lv) k) (hne : op lv ≠ 0xfc) : LenSpec (op lv) lv nv := by
  obtain ⟨e, he, rfl, ho, _⟩ := hv
  unfold LenSpec
  rcases len_table e he _ ho with e1 | ⟨e1, e2⟩ | ⟨e1, e2⟩ | ⟨e1, e2⟩
  · exact absurd e1 hne
  · rw [if_neg (by rw [e1]; decide), e2]
    intro g p q hc
    exact absurd hc (by simp)
  · rw [if_pos e1]
    have := h.len h1 e2
    push_cast at this
    linear_combination this
  · rw [if_neg e1]
    intro g p q hc
    rw [hc] at e2
    exact h.len h1 e2

end Verif.Stark.Cpu
