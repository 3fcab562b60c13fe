import Verif.Stark.Cpu.Pad

/-! C94: the memory operations of every instruction. -/

namespace Verif.Stark.Cpu

variable {L : Labels} {lv nv : Row F}

/-! ### The operations a row makes -/

/-- A memory operation. -/
structure MemOp where
  isRead : F
  context : F
  segment : F
  virt : F
  value : List F

/-- The limbs of the value of a channel. -/
def value (r : Row F) (c : ℕ) : List F := (List.range 8).map (fun k => r (VALUE c k))

/-- The operation of a general-purpose channel. `ctl_data_gp_memory`, `ctl_filter_gp_memory`, `cpu_stark.rs:355-370, 445-447`. -/
def gpOps (r : Row F) (c : ℕ) : List MemOp :=
  if r (USED c) = 1 then [⟨r (IS_READ c), r (ADDR_CONTEXT c), r (ADDR_SEGMENT c), r (ADDR_VIRTUAL c), value r c⟩] else []

/-- The operation of the partial channel. `ctl_data_partial_memory`, `ctl_filter_partial_memory`, `cpu_stark.rs:372-390, 449-451`. -/
def partialOps (r : Row F) : List MemOp :=
  if r P_USED = 1 then [⟨r P_IS_READ, r P_ADDR_CONTEXT, r P_ADDR_SEGMENT, r P_ADDR_VIRTUAL, value r 0⟩] else []

/-- The operations of an instruction in the order of their timestamps, with that of channel 0 of the next row, by which an instruction reads
the new top of the stack. Left out: the read of the opcode, and what other tables do on behalf of the instruction. -/
def rowOps (lv nv : Row F) : List MemOp := gpOps lv 1 ++ gpOps lv 2 ++ partialOps lv ++ gpOps nv 0

/-! ### Specification -/

/-- A read, and a write, of the stack at `virt`. -/
def rdStack (r : Row F) (virt : F) (v : List F) : MemOp := ⟨1, r CONTEXT, SEG_STACK, virt, v⟩
def wrStack (r : Row F) (virt : F) (v : List F) : MemOp := ⟨0, r CONTEXT, SEG_STACK, virt, v⟩

/-- After `p` elements were taken off, the new top is read unless the stack is empty. -/
def newTop (lv nv : Row F) (p : ℕ) : List MemOp :=
  if lv STACK_LEN = (p : F) then [] else [rdStack lv (lv STACK_LEN - (p : F) - 1) (value nv 0)]

/-- Before an element is pushed, the old top is written unless the stack is empty. -/
def spill (lv : Row F) : List MemOp := if lv STACK_LEN = 0 then [] else [wrStack lv (lv STACK_LEN - 1) (value lv 0)]

/-- In user mode, a jump reads the bit that marks its destination. -/
def jumpdestRead (lv : Row F) (d : ℕ) : List MemOp :=
  if lv KERNEL_MODE = 1 then [] else [⟨1, lv CONTEXT, SEG_JUMPDEST_BITS, (d : F), value lv 2⟩]

/-- The operations of the instruction `o` whose first operand is `a` and whose second one is `b`. -/
def expectedOps (o a b : ℕ) (lv nv : Row F) : List MemOp :=
  if o ∈ [0x08, 0x09, 0x0f] then [rdStack lv (lv STACK_LEN - 2) (value lv 1), rdStack lv (lv STACK_LEN - 3) (value lv 2)]
  else if o ∈ [0x15, 0x19, 0x5b] then []
  else if o ∈ [0x1b, 0x1c] then [rdStack lv (lv STACK_LEN - 2) (value lv 1)] ++
    (if a < 2 ^ 32 then [⟨1, 0, SEG_SHIFT_TABLE, (a : F), value lv 2⟩] else [])
  else if o = 0x50 ∨ o = 0xf9 then newTop lv nv 1
  else if o = 0x56 then jumpdestRead lv a ++ newTop lv nv 1
  else if o = 0x57 then [rdStack lv (lv STACK_LEN - 2) (value lv 1)] ++ (if b = 0 then [] else jumpdestRead lv a) ++ newTop lv nv 2
  else if o ∈ [0x58, 0x5f, 0xee, 0xf6] ∨ (0x60 ≤ o ∧ o < 0x80) then spill lv
  else if 0x80 ≤ o ∧ o < 0x90 then
    [wrStack lv (lv STACK_LEN - 1) (value lv 0), rdStack lv (lv STACK_LEN - 1 - ((o - 0x80 : ℕ) : F)) (value nv 0)]
  else if 0x90 ≤ o ∧ o < 0xa0 then
    [rdStack lv (lv STACK_LEN - 2 - ((o - 0x90 : ℕ) : F)) (value nv 0), wrStack lv (lv STACK_LEN - 2 - ((o - 0x90 : ℕ) : F)) (value lv 0)]
  else if o = 0xf7 then (if nv STACK_LEN = 0 then [] else [⟨1, lv (VALUE 0 2), SEG_STACK, nv STACK_LEN - 1, value nv 0⟩])
  else if o = 0xfb then [⟨1, lv (VALUE 0 2), lv (VALUE 0 1), lv (VALUE 0 0), value nv 0⟩]
  else if o = 0xfc then
    [rdStack lv (lv STACK_LEN - 2) (value lv 1), ⟨0, lv (VALUE 1 2), lv (VALUE 1 1), lv (VALUE 1 0), value lv 0⟩] ++ newTop lv nv 2
  else [rdStack lv (lv STACK_LEN - 2) (value lv 1)]

/-- C94 in full: every instruction makes the memory operations that are its own, and a row that executes nothing makes none. -/
def C94_statement : Prop :=
  ∀ (L : Labels) (n : ℕ) (T : ℕ → Row F), Accepted L n T → ∀ i, i + 1 < n →
    (Padding (T i) → rowOps (T i) (T (i + 1)) = []) ∧
    ∀ f ∈ flags, T i f = 1 → Valid f (op (T i)) (kernel (T i)) → ∀ a b, Holds (T i) 0 a → Holds (T i) 1 b →
      rowOps (T i) (T (i + 1)) = expectedOps (op (T i)) a b (T i) (T (i + 1))

/-! ### Violations -/

/-- A padding row whose partial channel writes `v` to the given address. -/
def forgeRow (L : Labels) (ctx seg virt : F) (v : ℕ → F) (t : ℕ) : Row F := fun c =>
  if c = PC then L.haltFinal else if c = KERNEL_MODE then 1 else if c = CLOCK then ((t + 1 : ℕ) : F) else if c = P_USED then 1
  else if c = P_ADDR_CONTEXT then ctx else if c = P_ADDR_SEGMENT then seg else if c = P_ADDR_VIRTUAL then virt
  else if VALUE 0 0 ≤ c ∧ c < VALUE 0 8 then v (c - VALUE 0 0) else 0

theorem forge_pad (L : Labels) (ctx seg virt : F) (v : ℕ → F) (t : ℕ) : PadRow L (forgeRow L ctx seg virt v t) where
  pad := by
    intro f hf
    have := mem_flags.1 hf
    unfold forgeRow
    simp only [PC, KERNEL_MODE, CLOCK, P_USED, P_ADDR_CONTEXT, P_ADDR_SEGMENT, P_ADDR_VIRTUAL, VALUE]
    repeat rw [if_neg (by omega)]
  pc := rfl
  mode := rfl
  code := rfl
  bits := by
    intro i hi
    unfold forgeRow
    simp only [PC, KERNEL_MODE, CLOCK, P_USED, P_ADDR_CONTEXT, P_ADDR_SEGMENT, P_ADDR_VIRTUAL, VALUE, BIT]
    repeat rw [if_neg (by omega)]
  used := by
    intro c hc
    unfold forgeRow
    simp only [PC, KERNEL_MODE, CLOCK, P_USED, P_ADDR_CONTEXT, P_ADDR_SEGMENT, P_ADDR_VIRTUAL, VALUE, USED]
    repeat rw [if_neg (by omega)]
  part := .inr rfl

/-- Any value can be written to any address by a table that executes nothing, of any height. -/
theorem C94_forge (L : Labels) (n : ℕ) (ctx seg virt : F) (v : ℕ → F) :
    Accepted L n (forgeRow L ctx seg virt v) ∧ ∀ i, Padding (forgeRow L ctx seg virt v i) ∧
      partialOps (forgeRow L ctx seg virt v i) = [⟨0, ctx, seg, virt, (List.range 8).map v⟩] := by
  refine ⟨pads_accepted (fun i _ => forge_pad L ctx seg virt v i) (fun i _ => rfl), fun i => ⟨(forge_pad L ctx seg virt v i).pad, ?_⟩⟩
  unfold partialOps
  rw [if_pos (show forgeRow L ctx seg virt v i P_USED = 1 from rfl)]
  rfl

theorem C94_violated : ¬ C94_statement := by
  intro h
  obtain ⟨ha, hp⟩ := C94_forge labels 2 0 0 0 (fun _ => 0)
  have := (h labels 2 _ ha 0 (by decide)).1 (hp 0).1
  have hm : (⟨0, 0, 0, 0, (List.range 8).map (fun _ => 0)⟩ : MemOp) ∈ rowOps (forgeRow labels 0 0 0 (fun _ => 0) 0) (forgeRow labels 0 0 0 (fun _ => 0) (0 + 1)) := by
    unfold rowOps
    refine List.mem_append_left _ (List.mem_append_right _ ?_)
    rw [(hp 0).2]
    simp
  rw [this] at hm
  simp at hm

/-- C93 fails: a table of any height that executes nothing is accepted. -/
theorem C93_idle (L : Labels) (n : ℕ) : ∃ T : ℕ → Row F, Accepted L n T ∧ ∀ i, Padding (T i) :=
  ⟨_, (C94_forge L n 0 0 0 (fun _ => 0)).1, fun i => ((C94_forge L n 0 0 0 (fun _ => 0)).2 i).1⟩

theorem C93_violated : ¬ C93_statement := by
  intro h
  obtain ⟨T, ha, hp⟩ := C93_idle labels 1
  exact (h labels 1 T (by decide) ha).1.1 (hp 0)

/-- C93 fails for tables that do execute something: this one starts at 99, not at `init`, with two elements on the stack. -/
theorem C93_violated_start : Accepted labels 2 (mkTable dupRows) ∧ ¬ Padding (mkTable dupRows 0) ∧ mkTable dupRows 0 PC ≠ (labels.init : F) ∧
    mkTable dupRows 0 STACK_LEN ≠ 0 :=
  ⟨dup_accepted, fun h => absurd (h DUP_SWAP (by decide)) (by decide +kernel), by decide +kernel, by decide +kernel⟩

/-- The hypotheses of `C93_end_partial` are met by a table that executes something. -/
example : mkTable dupRows 0 CLOCK = 1 ∧ mkTable dupRows 1 PC = 100 := by
  obtain ⟨hc, e, he, h1, h2⟩ := C93_end_partial (by decide) dup_accepted
  have : Padding (mkTable dupRows 1) ∧ _ := h2 1 (by decide) (by omega)
  exact ⟨(hc 0 (by decide)).trans (by simp), this.2.1.trans (by decide +kernel)⟩

end Verif.Stark.Cpu
