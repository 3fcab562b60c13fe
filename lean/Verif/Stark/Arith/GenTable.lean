import Verif.Stark.Arith.GenMod
import Verif.Stark.Arith.GenByte
import Verif.Stark.Arith.Export

/-! The generated arithmetic table is accepted and shows every operation once, in order. Property C98. -/

namespace Verif.Stark.Arith

open Finset

/-! ### Specification -/

/-- The operands are words and the stored result is the one the constructors compute. (Specification.) -/
def Operation.Honest : Operation → Prop
  | .binary op a b r => a < 2 ^ 256 ∧ b < 2 ^ 256 ∧ r = op.result a b
  | .ternary op a b c r => a < 2 ^ 256 ∧ b < 2 ^ 256 ∧ c < 2 ^ 256 ∧ r = op.result a b c
  | .rangeCheck a b c o r => a < 2 ^ 256 ∧ b < 2 ^ 256 ∧ c < 2 ^ 256 ∧ r < 2 ^ 256 ∧ o < 256

/-- The opcodes of the EVM and of the kernel's own instructions. (Specification.) -/
def BinaryOp.opcode : BinaryOp → ℕ
  | .add => 0x01 | .mul => 0x02 | .sub => 0x03 | .div => 0x04 | .mod => 0x06 | .lt => 0x10 | .gt => 0x11
  | .addFp254 => 0x0c | .mulFp254 => 0x0d | .subFp254 => 0x0e | .byte => 0x1a | .shl => 0x1b | .shr => 0x1c

def TernaryOp.opcode : TernaryOp → ℕ
  | .addMod => 0x08 | .mulMod => 0x09 | .subMod => 0x0f

/-- The third operand the CPU table expects: the power of two for shifts, the modulus for the operations of the curve. (Specification.) -/
def BinaryOp.third (op : BinaryOp) (a : ℕ) : ℕ :=
  match op with
  | .shl | .shr => if a < 256 then 2 ^ a else 0
  | .addFp254 | .mulFp254 | .subFp254 => 21888242871839275222246405745257275088696311157297823662689037894645226208583
  | _ => 0

/-- What the CPU table looks up. -/
structure Entry where
  opcode : ℕ
  in0 : ℕ
  in1 : ℕ
  in2 : ℕ
  out : ℕ
  deriving DecidableEq

/-- The entry of an operation. (Specification.) -/
def Operation.entry : Operation → Entry
  | .binary op a b r => ⟨op.opcode, a, b, op.third a, r⟩
  | .ternary op a b c r => ⟨op.opcode, a, b, c, r⟩
  | .rangeCheck a b c o r => ⟨o, a, b, c, r⟩

/-- The row holds the entry. (Specification.) -/
structure HasEntry (row : Row F) (e : Entry) : Prop where
  opcode : ctlOpcode row = (e.opcode : F)
  in0 : Words row INPUT_REGISTER_0 e.in0
  in1 : Words row INPUT_REGISTER_1 e.in1
  in2 : Words row INPUT_REGISTER_2 e.in2
  out : Words row OUTPUT_REGISTER e.out

/-- The number of rows: one or two for each operation. (Specification.) -/
def Operation.height : Operation → ℕ
  | .binary op .. => match op with
    | .add | .mul | .sub | .lt | .gt | .byte | .shl => 1
    | .div | .mod | .shr | .addFp254 | .mulFp254 | .subFp254 => 2
  | .ternary .. => 2
  | .rangeCheck .. => 1

/-! ### Rows of one operation -/

/-- What is needed of every row. -/
structure Sane (r : Row F) : Prop where
  flags : ∀ lv, Agrees lv r → AllZero (evalFlags lv)
  ranged : Ranged r

/-- A list of rows that satisfies the constraints wherever it is put. -/
def Good : List (Row F) → Prop
  | [] => True
  | r :: rest => Sane r ∧ ((∀ lv, Agrees lv r → ∀ nv, AllZero (evalOps lv nv)) ∨
      (∃ r' rest', rest = r' :: rest' ∧ ∀ lv nv, Agrees lv r → Agrees nv r' → Holds (evalOps lv nv))) ∧ Good rest

/-- The rows of one operation: the first has the entry, and the others are not shared. -/
structure Block (e : Entry) (rows : List (Row F)) : Prop where
  cons : ∃ r rest, rows = r :: rest ∧ ctlFilter r = 1 ∧ HasEntry r e ∧ ∀ r' ∈ rest, ctlFilter r' = 0
  good : ∀ tail, Good tail → Good (rows ++ tail)

theorem filter_flag {row : Row F} {f : ℕ} (hf : f < 17) (h : ∀ g < 17, row g = flagRow f g) : ctlFilter row = 1 := by
  rw [sum_flags, sum_congr rfl (fun g hg => h g (mem_range.1 hg))]
  unfold flagRow
  rw [sum_ite_eq' (range N_FLAGS) f (fun _ => (1 : F)), if_pos (mem_range.2 hf)]

theorem filter_none {row : Row F} (h : ∀ g < 17, row g = 0) : ctlFilter row = 0 := by
  rw [sum_flags]
  exact sum_eq_zero (fun g hg => h g (mem_range.1 hg))

theorem sane_flag {f : ℕ} (hf : f < 16) {row : Row F} (ok : RowOk (flagRow f) row) : Sane row := by
  refine ⟨fun lv hlv => ?_, ok.ranged⟩
  have hfl := (ok.agrees hlv).flags
  refine flags_one (f := f) (by omega) (fun g hg => hfl g (by omega)) ?_
  rw [hfl OPCODE_COL (by decide)]
  unfold flagRow
  rw [if_neg (by simp only [OPCODE_COL]; omega), mul_zero]

theorem sane_none {row : Row F} (ok : RowOk (fun _ => 0) row) : Sane row := by
  refine ⟨fun lv hlv => ?_, ok.ranged⟩
  have hfl := (ok.agrees hlv).flags
  exact flags_zero (fun g hg => hfl g (by simp only [N_FLAGS] at hg; omega)) (hfl _ (by decide))

theorem good_none {row : Row F} (ok : RowOk (fun _ => 0) row) {tail : List (Row F)} (h : Good tail) : Good (row :: tail) := by
  refine ⟨sane_none ok, .inl (fun lv hlv nv => ?_), h⟩
  exact ops_zero (fun g hg => (ok.agrees hlv).flags g (by simp only [N_FLAGS] at hg; omega))

/-- The opcode that belongs to a flag. -/
theorem opcode_flag {row : Row F} {f o : ℕ} (h : ∀ g < 18, row g = flagRow f g) (hf : (f, o) ∈ combinedOps) : ctlOpcode row = (o : F) := by
  have hc : ctlOpcode row = ctlOpcode (flagRow f) := by
    unfold ctlOpcode
    rw [h OPCODE_COL (by decide)]
    congr 2
    refine List.map_congr_left (fun p hp => ?_)
    have : ∀ p ∈ combinedOps, p.1 < 18 := by decide
    rw [h p.1 (this p hp)]
  have hz : ∀ (l : List (ℕ × ℕ)), (l.map (fun p => (p.2 : F) * flagRow f p.1)).sum = ((l.map (fun p => if p.1 = f then p.2 else 0)).sum : ℕ) := by
    intro l
    induction l with
    | nil => simp
    | cons p l ih =>
      rw [List.map_cons, List.map_cons, List.sum_cons, List.sum_cons, ih, Nat.cast_add]
      unfold flagRow
      split <;> simp
  have h16 : ∀ p ∈ combinedOps, p.1 < 16 ∧ (combinedOps.map (fun q => if q.1 = p.1 then q.2 else 0)).sum = p.2 := by decide
  have hl : flagRow f OPCODE_COL = 0 := by
    unfold flagRow
    rw [if_neg]
    have := (h16 _ hf).1
    simp only [OPCODE_COL] at this ⊢
    omega
  rw [hc]
  unfold ctlOpcode
  rw [List.sum_append, List.sum_singleton, hl, add_zero, hz, (h16 _ hf).2]

theorem entry_of {f : ℕ} {row : Row F} (ok : RowOk (flagRow f) row) {a b c out o : ℕ} (h : Shows row a b c out) (hf : (f, o) ∈ combinedOps) :
    HasEntry row ⟨o, a, b, c, out⟩ :=
  ⟨opcode_flag ok.flags hf, words_of_num ok.ranged ⟨by decide, by decide⟩ h.in0, words_of_num ok.ranged ⟨by decide, by decide⟩ h.in1,
    words_of_num ok.ranged ⟨by decide, by decide⟩ h.in2, words_of_num ok.ranged ⟨by decide, by decide⟩ h.out⟩

theorem OneRow.block {f : ℕ} {row : Row F} {a b c out o : ℕ} (h : OneRow f row a b c out) (hf : (f, o) ∈ combinedOps) : Block ⟨o, a, b, c, out⟩ [row] := by
  have hlt : ∀ p ∈ combinedOps, p.1 < 16 := by decide
  have h16 := hlt _ hf
  refine ⟨⟨row, [], rfl, filter_flag (f := f) (by omega) (fun g hg => h.ok.flags g (by omega)), entry_of h.ok h.shows hf, by simp⟩, fun tail ht => ?_⟩
  exact ⟨sane_flag h16 h.ok, .inl h.sat, ht⟩

theorem TwoRows.block {f : ℕ} {row next : Row F} {a b c out o : ℕ} (h : TwoRows f row next a b c out) (hf : (f, o) ∈ combinedOps) :
    Block ⟨o, a, b, c, out⟩ [row, next] := by
  have hlt : ∀ p ∈ combinedOps, p.1 < 16 := by decide
  have h16 := hlt _ hf
  refine ⟨⟨row, [next], rfl, filter_flag (f := f) (by omega) (fun g hg => h.ok.flags g (by omega)), entry_of h.ok h.shows hf, ?_⟩, fun tail ht => ?_⟩
  · intro r hr
    rw [List.mem_singleton] at hr
    subst hr
    exact filter_none (fun g hg => h.nextOk.flags g (by omega))
  · exact ⟨sane_flag h16 h.ok, .inr ⟨next, tail, rfl, h.sat⟩, good_none h.nextOk ht⟩

/-- The row of a range check. -/
theorem rangeCheck_block {a b c o r : ℕ} (ha : a < 2 ^ 256) (hb : b < 2 ^ 256) (hc : c < 2 ^ 256) (hr : r < 2 ^ 256) (ho : o < 256) :
    ∃ rows, rangeCheckRows a b c o r = some rows ∧ rows.length = 1 ∧ Block ⟨o, a, b, c, r⟩ rows := by
  refine ⟨_, if_pos (by omega), rfl, ?_⟩
  have ok : RowOk (setCol (flagRow IS_RANGE_CHECK) OPCODE_COL (o : F)) (setU256 (setU256 (setU256 (setU256 (setCol (flagRow IS_RANGE_CHECK) OPCODE_COL (o : F))
      INPUT_REGISTER_0 a) INPUT_REGISTER_1 b) INPUT_REGISTER_2 c) OUTPUT_REGISTER r) := by
    have h0 : RowOk (setCol (flagRow IS_RANGE_CHECK) OPCODE_COL (o : F)) (setCol (flagRow IS_RANGE_CHECK) OPCODE_COL (o : F)) := by
      refine ⟨fun _ _ => rfl, fun c h1 h2 => ?_⟩
      rw [setCol_ne _ _ (by simp only [START_SHARED_COLS, OPCODE_COL] at *; omega)]
      exact ranged_flag (by decide) c h1 h2
    exact (((h0.setU256 _ (by decide)).setU256 _ (by decide)).setU256 _ (by decide)).setU256 _ (by decide)
  have n0 : num (setU256 (setU256 (setU256 (setU256 (setCol (flagRow IS_RANGE_CHECK) OPCODE_COL (o : F)) INPUT_REGISTER_0 a) INPUT_REGISTER_1 b)
      INPUT_REGISTER_2 c) OUTPUT_REGISTER r) INPUT_REGISTER_0 = a := num_u256 (by simp only [nLimbs]; intro i hi; cells) ha
  have n1 : num (setU256 (setU256 (setU256 (setU256 (setCol (flagRow IS_RANGE_CHECK) OPCODE_COL (o : F)) INPUT_REGISTER_0 a) INPUT_REGISTER_1 b)
      INPUT_REGISTER_2 c) OUTPUT_REGISTER r) INPUT_REGISTER_1 = b := num_u256 (by simp only [nLimbs]; intro i hi; cells) hb
  have n2 : num (setU256 (setU256 (setU256 (setU256 (setCol (flagRow IS_RANGE_CHECK) OPCODE_COL (o : F)) INPUT_REGISTER_0 a) INPUT_REGISTER_1 b)
      INPUT_REGISTER_2 c) OUTPUT_REGISTER r) INPUT_REGISTER_2 = c := num_u256 (by simp only [nLimbs]; intro i hi; cells) hc
  have n3 : num (setU256 (setU256 (setU256 (setU256 (setCol (flagRow IS_RANGE_CHECK) OPCODE_COL (o : F)) INPUT_REGISTER_0 a) INPUT_REGISTER_1 b)
      INPUT_REGISTER_2 c) OUTPUT_REGISTER r) OUTPUT_REGISTER = r := num_u256 (by simp only [nLimbs]; intro i hi; cells) hr
  generalize setU256 (setU256 (setU256 (setU256 (setCol (flagRow IS_RANGE_CHECK) OPCODE_COL (o : F)) INPUT_REGISTER_0 a) INPUT_REGISTER_1 b)
      INPUT_REGISTER_2 c) OUTPUT_REGISTER r = row at *
  have hfl : ∀ {lv : Row F}, Agrees lv row → ∀ g < 17, lv g = flagRow IS_RANGE_CHECK g := by
    intro lv hlv g hg
    rw [(ok.agrees hlv).flags g (by omega), setCol_ne _ _ (by simp only [OPCODE_COL]; omega)]
  have hop : row OPCODE_COL = (o : F) := by rw [ok.flags _ (by decide), setCol_eq]
  refine ⟨⟨row, [], rfl, filter_flag (f := IS_RANGE_CHECK) (by decide) (hfl (agrees_self _)), ⟨?_, words_of_num ok.ranged ⟨by decide, by decide⟩ n0,
    words_of_num ok.ranged ⟨by decide, by decide⟩ n1, words_of_num ok.ranged ⟨by decide, by decide⟩ n2, words_of_num ok.ranged ⟨by decide, by decide⟩ n3⟩,
    by simp⟩, fun tail ht => ⟨⟨fun lv hlv => ?_, ok.ranged⟩, .inl (fun lv hlv nv => ?_), ht⟩⟩
  · have hz : ∀ p ∈ combinedOps, (p.2 : F) * row p.1 = 0 := by
      intro p hp
      have : ∀ p ∈ combinedOps, p.1 < 16 := by decide
      have := this p hp
      rw [hfl (agrees_self _) p.1 (by omega)]
      unfold flagRow
      rw [if_neg (by simp only [IS_RANGE_CHECK]; omega), mul_zero]
    unfold ctlOpcode
    rw [List.sum_append, List.sum_singleton, hop, List.map_congr_left hz]
    simp
  · refine flags_one (f := IS_RANGE_CHECK) (by decide) (hfl hlv) ?_
    rw [hfl hlv _ (by decide), flagRow_self, sub_self, zero_mul]
  · intro x hx
    rw [evalOps_eq, List.mem_flatMap] at hx
    obtain ⟨p, hp, hx⟩ := hx
    refine part_zero hp (fun g hg => ?_) x hx
    rw [hfl hlv g (part_flags hp g hg)]
    unfold flagRow
    rw [if_neg]
    rintro rfl
    simp only [parts, List.mem_cons, List.not_mem_nil, or_false] at hp
    rcases hp with rfl | rfl | rfl | rfl | rfl | rfl | rfl | rfl | rfl | rfl | rfl <;> exact absurd hg (by dsimp only; decide)

theorem bnBase_eq : bnBase = 21888242871839275222246405745257275088696311157297823662689037894645226208583 := by decide +kernel

/-- The rows of an operation. -/
theorem op_block {op : Operation} (h : op.Honest) : ∃ rows, op.toRows = some rows ∧ rows.length = op.height ∧ Block op.entry rows := by
  cases op with
  | rangeCheck a b c o r =>
    obtain ⟨ha, hb, hc, hr, ho⟩ := h
    exact rangeCheck_block ha hb hc hr ho
  | ternary op a b c r =>
    obtain ⟨ha, hb, hc, rfl⟩ := h
    obtain ⟨lv, nv, h1, h2⟩ := ternary_gen op ha hb hc
    exact ⟨_, h1, rfl, h2.block (o := op.opcode) (by cases op <;> decide)⟩
  | binary op a b r =>
    obtain ⟨ha, hb, rfl⟩ := h
    unfold Operation.toRows Operation.entry Operation.height
    cases op <;> unfold binaryRows <;> dsimp only [BinaryOp.third]
    · obtain ⟨row, h1, h2⟩ := add_gen ha hb
      exact ⟨[row], by simp only [BinaryOp.rowFilter, h1]; rfl, rfl, h2.block (by decide)⟩
    · exact ⟨_, rfl, rfl, (mul_gen ha hb).block (by decide)⟩
    · obtain ⟨row, h1, h2⟩ := sub_gen ha hb
      exact ⟨[row], by simp only [BinaryOp.rowFilter, h1]; rfl, rfl, h2.block (by decide)⟩
    · obtain ⟨lv, nv, h1, h2⟩ := div_gen ha hb
      exact ⟨[lv, nv], by simp only [BinaryOp.rowFilter, h1]; rfl, rfl, h2.block (by decide)⟩
    · obtain ⟨lv, nv, h1, h2⟩ := mod_gen ha hb
      exact ⟨[lv, nv], by simp only [BinaryOp.rowFilter, h1]; rfl, rfl, h2.block (by decide)⟩
    · obtain ⟨row, h1, h2⟩ := lt_gen ha hb
      exact ⟨[row], by simp only [BinaryOp.rowFilter, h1]; rfl, rfl, h2.block (by decide)⟩
    · obtain ⟨row, h1, h2⟩ := gt_gen ha hb
      exact ⟨[row], by simp only [BinaryOp.rowFilter, h1]; rfl, rfl, h2.block (by decide)⟩
    · obtain ⟨lv, nv, h1, h2⟩ := fp_gen .addFp254 (.inl rfl) ha hb
      rw [bnBase_eq] at h2
      exact ⟨[lv, nv], h1, rfl, h2.block (by decide)⟩
    · obtain ⟨lv, nv, h1, h2⟩ := fp_gen .mulFp254 (.inr (.inl rfl)) ha hb
      rw [bnBase_eq] at h2
      exact ⟨[lv, nv], h1, rfl, h2.block (by decide)⟩
    · obtain ⟨lv, nv, h1, h2⟩ := fp_gen .subFp254 (.inr (.inr rfl)) ha hb
      rw [bnBase_eq] at h2
      exact ⟨[lv, nv], h1, rfl, h2.block (by decide)⟩
    · exact ⟨_, rfl, rfl, (byte_gen ha hb).block (by decide)⟩
    · exact ⟨_, rfl, rfl, (shl_gen ha hb _).block (by decide)⟩
    · obtain ⟨lv, nv, h1, h2⟩ := shr_gen ha hb
      exact ⟨[lv, nv], by simp only [BinaryOp.rowFilter, h1]; rfl, rfl, h2.block (by decide)⟩

end Verif.Stark.Arith
