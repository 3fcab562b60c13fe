import Verif.Stark.BytePacking.Table
import Verif.Stark.Logic
import Mathlib.Data.List.GetD

/-! Generation of the byte packing table, and the operations logged for it. Property C88. -/

namespace Verif.Stark.BytePacking

open Finset Arith

/-! ### Generation -/

/-- `BytePackingOp`. `byte_packing_stark.rs:153-166`. -/
structure Op where
  isRead : Bool
  ctx : ℕ
  seg : ℕ
  virt : ℕ
  ts : ℕ
  bytes : List ℕ
  deriving DecidableEq

/-- `generate_row_for_op`. `byte_packing_stark.rs:215-247`. Only called with at least one and at most 32 bytes (a longer list is an index out of
bounds). -/
def genRow (op : Op) : Row F := fun c =>
  if c = IS_READ then (if op.isRead then 1 else 0)
  else if c < 33 then (if c = LEN (op.bytes.length - 1) then 1 else 0)
  else if c = CTX then (op.ctx : F)
  else if c = SEG then (op.seg : F)
  else if c = VIRT then (op.virt : F)
  else if c = TS then (op.ts : F)
  else if c < 69 then ((op.bytes.reverse.getD (c - 37) 0 : ℕ) : F)
  else 0

/-- The height of the table. `generate_trace_rows`, `byte_packing_stark.rs:199`. -/
def height (ops : List Op) (minRows : ℕ) : ℕ := Logic.nextPow (max (max ops.length 256) minRows)

/-- The rows before the range check columns are filled: one for each sequence that is not empty, then zeros. `generate_trace_rows`,
`byte_packing_stark.rs:194-213`, `generate_padding_row`, 254-256. -/
def baseRow (ops : List Op) (i : ℕ) : Row F :=
  match (ops.filter (fun op => !op.bytes.isEmpty))[i]? with
  | some op => genRow op
  | none => fun _ => 0

/-- The table of height `n`. `generate_trace`, `byte_packing_stark.rs:175-192`, `generate_range_checks`, 259-288: the loop over all cells that adds
one to the frequency of each value is written as the number of its occurrences. -/
def traceRow (n : ℕ) (ops : List Op) (i : ℕ) : Row F := fun c =>
  if c = COUNTER then ((if i < 256 then i else 256 - 1 : ℕ) : F)
  else if c = FREQ then (if i < 256 then (occurrences n (looking (baseRow ops)) i : F) else 0)
  else baseRow ops i c

/-- The number with the given bytes, most significant first. (Specification.) -/
def beNat (bytes : List ℕ) : ℕ := bytes.foldl (fun a b => a * 256 + b) 0

/-- The packed sequence of an operation. (Specification.) -/
def Op.packed (op : Op) : Packed := ⟨if op.isRead then 1 else 0, op.ctx, op.seg, op.virt, op.ts, op.bytes.length, beNat op.bytes⟩

theorem beNat_append (l : List ℕ) (b : ℕ) : beNat (l ++ [b]) = beNat l * 256 + b := by
  unfold beNat; rw [List.foldl_append]; rfl

theorem beNat_digit (l : List ℕ) (h : ∀ b ∈ l, b < 256) (j : ℕ) : beNat l.reverse / 256 ^ j % 256 = l.getD j 0 := by
  induction l generalizing j with
  | nil => simp [beNat]
  | cons b l ih =>
    have hb := h b List.mem_cons_self
    rw [List.reverse_cons, beNat_append]
    cases j with
    | zero => simp only [pow_zero, Nat.div_one, List.getD_cons_zero]; omega
    | succ j =>
      rw [pow_succ', ← Nat.div_div_eq_div_mul, show (beNat l.reverse * 256 + b) / 256 = beNat l.reverse by omega,
        ih (fun x hx => h x (List.mem_cons_of_mem _ hx)), List.getD_cons_succ]

theorem beNat_lt (l : List ℕ) (h : ∀ b ∈ l, b < 256) : beNat l.reverse < 256 ^ l.length := by
  induction l with
  | nil => simp [beNat]
  | cons b l ih =>
    have hb := h b List.mem_cons_self
    have := ih (fun x hx => h x (List.mem_cons_of_mem _ hx))
    rw [List.reverse_cons, beNat_append, List.length_cons, pow_succ]
    omega

/-- An operation with bytes. -/
structure Op.Ok (op : Op) : Prop where
  nonempty : 1 ≤ op.bytes.length
  short : op.bytes.length ≤ 32
  bytes : ∀ b ∈ op.bytes, b < 256

section
variable {op : Op}

theorem genRow_len (op : Op) {i : ℕ} (hi : i < 32) : genRow op (LEN i) = if LEN i = LEN (op.bytes.length - 1) then 1 else 0 := by
  unfold genRow
  rw [if_neg (by simp), if_pos (by simp only [LEN]; omega)]

theorem genRow_byte (op : Op) {j : ℕ} (hj : j < 32) : genRow op (BYTE j) = ((op.bytes.reverse.getD j 0 : ℕ) : F) := by
  unfold genRow
  simp only [BYTE, CTX, SEG, VIRT, TS]
  rw [if_neg (by simp), if_neg (by omega), if_neg (by omega), if_neg (by omega), if_neg (by omega), if_neg (by omega), if_pos (by omega),
    show 37 + j - 37 = j by omega]

theorem Op.Ok.lenIs (h : op.Ok) : LenIs (genRow op) (op.bytes.length - 1) where
  lt := by have := h.short; have := h.nonempty; omega
  one := by rw [genRow_len op (by have := h.short; have := h.nonempty; omega), if_pos rfl]
  zero i hi hne := by rw [genRow_len op hi, if_neg (by simp only [LEN]; omega)]

theorem Op.Ok.row (h : op.Ok) : RowOk (genRow op) where
  filter := .inr h.lenIs.filter
  read := by show (if op.isRead then (1 : F) else 0) = 0 ∨ (if op.isRead then (1 : F) else 0) = 1; cases op.isRead <;> simp
  len i hi := by rw [genRow_len op hi]; split <;> simp
  high i hi j hij hj := by
    rw [genRow_len op (by omega), genRow_byte op hj]
    by_cases he : LEN i = LEN (op.bytes.length - 1)
    · simp only [LEN] at he
      have := h.nonempty
      rw [List.getD_eq_default _ _ (by rw [List.length_reverse]; omega), Nat.cast_zero, mul_zero]
    · rw [if_neg he, zero_mul]

theorem Op.Ok.shows (h : op.Ok) : Shows (genRow op) op.packed := by
  have hs := h.short
  have hn := h.nonempty
  have hrev : ∀ b ∈ op.bytes.reverse, b < 256 := fun b hb => h.bytes b (List.mem_reverse.1 hb)
  refine ⟨h.lenIs.filter, rfl, rfl, rfl, rfl, ?_, ?_, rfl, ?_, fun k hk => limb_of_bytes (fun j hj => ?_) hk⟩
  · refine (h.lenIs.sum (fun i => ((i + 1 : ℕ) : F))).trans ?_
    show ((op.bytes.length - 1 + 1 : ℕ) : F) = (op.bytes.length : F)
    rw [show op.bytes.length - 1 + 1 = op.bytes.length by omega]
  · show op.bytes.length < P; unfold P; omega
  · have := beNat_lt _ hrev
    rw [List.reverse_reverse, List.length_reverse] at this
    refine lt_of_lt_of_le this ((Nat.pow_le_pow_right (by decide) hs).trans (by norm_num))
  · rw [genRow_byte op hj, ← beNat_digit _ hrev, List.reverse_reverse]
    rfl

end

/-- The cells of the table apart from the range check columns. -/
theorem traceRow_of {n : ℕ} {ops : List Op} {i c : ℕ} (hc : c < 69) : traceRow n ops i c = baseRow ops i c := by
  unfold traceRow; rw [if_neg (by show c ≠ 69; omega), if_neg (by show c ≠ 70; omega)]

theorem filter_congr {a b : Row F} (h : ∀ c < 69, a c = b c) : filter a = filter b :=
  congrArg List.sum (List.map_congr_left (fun i hi => h _ (by have := List.mem_range.1 hi; simp only [LEN]; omega)))

theorem RowOk.congr {a b : Row F} (h : ∀ c < 69, a c = b c) (hb : RowOk b) : RowOk a where
  filter := by rw [filter_congr h]; exact hb.filter
  read := by rw [h _ (by decide)]; exact hb.read
  len i hi := by rw [h _ (by simp only [LEN]; omega)]; exact hb.len i hi
  high i hi j hij hj := by rw [h _ (by simp only [LEN]; omega), h _ (by simp only [BYTE]; omega)]; exact hb.high i hi j hij hj

theorem Shows.congr {a b : Row F} (h : ∀ c < 69, a c = b c) {e : Packed} (hb : Shows b e) : Shows a e := by
  obtain ⟨h1, h2, h3, h4, h5, h6, h7, h8, h9, h10⟩ := hb
  refine ⟨by rw [filter_congr h]; exact h1, by rw [h _ (by decide)]; exact h2, by rw [h _ (by decide)]; exact h3, by rw [h _ (by decide)]; exact h4,
    by rw [h _ (by decide)]; exact h5, ?_, h7, by rw [h _ (by decide)]; exact h8, h9, fun k hk => ?_⟩
  · rw [← h6]
    exact congrArg List.sum (List.map_congr_left (fun i hi => by rw [h _ (by have := List.mem_range.1 hi; simp only [LEN]; omega)]))
  · rw [← h10 k hk, limb_four, limb_four, h _ (by simp only [BYTE]; omega), h _ (by simp only [BYTE]; omega), h _ (by simp only [BYTE]; omega),
      h _ (by simp only [BYTE]; omega)]

theorem zero_filter : filter (fun _ => (0 : F)) = 0 := List.sum_eq_zero (fun x hx => by obtain ⟨_, _, rfl⟩ := List.mem_map.1 hx; rfl)

theorem zero_row : RowOk (fun _ => (0 : F)) where
  filter := .inl zero_filter
  read := .inl rfl
  len _ _ := .inl rfl
  high _ _ _ _ _ := mul_zero _

/-- The operations that get a row. -/
abbrev rowsOf (ops : List Op) : List Op := ops.filter (fun op => !op.bytes.isEmpty)

theorem baseRow_some {ops : List Op} {i : ℕ} {op : Op} (h : (rowsOf ops)[i]? = some op) : baseRow ops i = genRow op := by
  unfold baseRow; rw [h]

theorem baseRow_none {ops : List Op} {i : ℕ} (h : (rowsOf ops)[i]? = none) : baseRow ops i = fun _ => 0 := by
  unfold baseRow; rw [h]

/-- Property C88: the table generated for a list of sequences of at most 32 bytes, not all empty, satisfies the constraints and the lookup of its
bytes, and exports each sequence that is not empty. -/
theorem C88_table (ops : List Op) (minRows : ℕ) (hok : ∀ op ∈ ops, op.bytes.length ≤ 32 ∧ ∀ b ∈ op.bytes, b < 256) (hne : ∃ op ∈ ops, op.bytes ≠ []) :
    Accepted (height ops minRows) (traceRow (height ops minRows) ops) ∧
    ∀ op ∈ ops, op.bytes ≠ [] → Exports (height ops minRows) (traceRow (height ops minRows) ops) op.packed := by
  have hle : max (max ops.length 256) minRows ≤ height ops minRows := Nat.le_pow_clog Nat.one_lt_two _
  have h256 : 256 ≤ height ops minRows := le_trans (by omega) hle
  have hlen : ops.length ≤ height ops minRows := le_trans (by omega) hle
  generalize height ops minRows = n at h256 hlen
  have hmem : ∀ op, op ∈ rowsOf ops → op.Ok := by
    intro op h
    obtain ⟨h1, h2⟩ := List.mem_filter.1 h
    refine ⟨?_, (hok op h1).1, (hok op h1).2⟩
    rw [Bool.not_eq_true', List.isEmpty_eq_false_iff] at h2
    exact List.length_pos_iff.2 h2
  have hbase : ∀ i, (∃ op ∈ rowsOf ops, baseRow ops i = genRow op ∧ op.Ok) ∨
      (baseRow ops i = (fun _ => 0) ∧ (rowsOf ops).length ≤ i) := by
    intro i
    rcases he : (rowsOf ops)[i]? with _ | op
    · exact .inr ⟨baseRow_none he, List.getElem?_eq_none_iff.1 he⟩
    · exact .inl ⟨op, List.mem_of_getElem? he, baseRow_some he, hmem op (List.mem_of_getElem? he)⟩
  have hrow : ∀ i, RowOk (traceRow n ops i) := by
    intro i
    refine RowOk.congr (fun c hc => traceRow_of hc) ?_
    rcases hbase i with ⟨op, -, e, ho⟩ | ⟨e, -⟩ <;> rw [e]
    · exact ho.row
    · exact zero_row
  have hfil : ∀ i, filter (traceRow n ops i) = if i < (rowsOf ops).length then 1 else 0 := by
    intro i
    rw [filter_congr (fun c hc => traceRow_of hc)]
    rcases he : (rowsOf ops)[i]? with _ | op
    · have hge := List.getElem?_eq_none_iff.1 he
      rw [if_neg (by omega), baseRow_none he]; exact zero_filter
    · obtain ⟨hlt, -⟩ := List.getElem?_eq_some_iff.1 he
      rw [if_pos hlt, baseRow_some he]; exact (hmem op (List.mem_of_getElem? he)).lenIs.filter
  have hctr : ∀ i, traceRow n ops i COUNTER = ((if i < 256 then i else 256 - 1 : ℕ) : F) := fun i => if_pos rfl
  have hlook : looking (traceRow n ops) = looking (baseRow ops) := by
    refine List.map_congr_left (fun j hj => ?_)
    have := List.mem_range.1 hj
    congr 1
    funext i
    exact traceRow_of (by simp only [BYTE]; omega)
  refine ⟨⟨sat_iff.2 (fun i hi => ⟨hrow i, ?_, ?_, ?_⟩), ?_⟩, ?_⟩
  · rintro rfl
    refine ⟨by rw [hctr]; simp, ?_⟩
    rw [hfil, if_pos]
    obtain ⟨op, h1, h2⟩ := hne
    refine List.length_pos_of_mem (List.mem_filter.2 ⟨h1, ?_⟩)
    rw [Bool.not_eq_true', List.isEmpty_eq_false_iff]; exact h2
  · intro hin
    rw [Nat.mod_eq_of_lt (by omega)]
    constructor
    · rw [hctr, hctr]
      by_cases h1 : i + 1 < 256
      · rw [if_pos h1, if_pos (by omega)]; push_cast; ring
      · by_cases h2 : i < 256
        · rw [if_neg h1, if_pos h2, show i = 255 by omega]; push_cast; ring
        · rw [if_neg h1, if_neg h2]; ring
    · rw [hfil, hfil]
      split_ifs <;> first | omega | simp
  · intro hin
    rw [hctr]
    by_cases h2 : i < 256
    · rw [if_pos h2, show i = 255 by omega]; rfl
    · rw [if_neg h2]; rfl
  · rw [hlook]
    have := logUp_counter (n := n) (N := 256) (looking := looking (baseRow ops)) h256 (by decide)
      (by intro l hl i _; obtain ⟨j, -, rfl⟩ := List.mem_map.1 hl; rfl)
      (by
        intro l hl i _
        obtain ⟨j, hj, rfl⟩ := List.mem_map.1 hl
        have hj := List.mem_range.1 hj
        show ∃ x : ℕ, x < 256 ∧ baseRow ops i (BYTE j) = (x : F)
        rcases hbase i with ⟨op, -, e, ho⟩ | ⟨e, -⟩ <;> rw [e]
        · refine ⟨_, ?_, genRow_byte op hj⟩
          by_cases hjl : j < op.bytes.reverse.length
          · rw [List.getD_eq_getElem _ _ hjl]
            exact ho.bytes _ (List.mem_reverse.1 (List.getElem_mem hjl))
          · rw [List.getD_eq_default _ _ (by omega)]; decide
        · exact ⟨0, by decide, by simp⟩)
    exact this
  · intro op h1 h2
    have hm : op ∈ rowsOf ops := by
      refine List.mem_filter.2 ⟨h1, ?_⟩
      rw [Bool.not_eq_true', List.isEmpty_eq_false_iff]; exact h2
    obtain ⟨i, hi, he⟩ := List.getElem_of_mem hm
    have hile : i < n := lt_of_lt_of_le hi ((List.length_filter_le _ _).trans hlen)
    refine ⟨i, hile, Shows.congr (fun c hc => traceRow_of hc) ?_⟩
    have : baseRow ops i = genRow op := baseRow_some (by rw [List.getElem?_eq_getElem hi, he])
    rw [this]
    exact (hmem op hm).shows

/-! ### Logging -/

/-- `MemoryOp` as far as the byte packing table is concerned: the filter is set. `witness/memory.rs:87-95`. -/
structure MemOp where
  isRead : Bool
  ctx : ℕ
  seg : ℕ
  virt : ℕ
  value : ℕ
  ts : ℕ

/-- `MemoryAddress::increment` on the virtual address, which saturates. `witness/memory.rs:75-77`. -/
def increment (virt : ℕ) : ℕ := min (virt + 1) (2 ^ 64 - 1)

/-- The loop that pushes one memory operation for each byte, in the code channel. `byte_packing_log` and `byte_unpacking_log`,
`witness/util.rs:350-380, 382-413`; `MemoryOp::new`, `witness/memory.rs:111-128`, with `NUM_CHANNELS = 5` (`cpu/membus.rs`) and index 0 of the code
channel. -/
def pushBytes (isRead : Bool) (ctx seg ts : ℕ) : ℕ → List ℕ → List MemOp
  | _, [] => []
  | virt, b :: bs => ⟨isRead, ctx, seg, virt, b, ts⟩ :: pushBytes isRead ctx seg ts (increment virt) bs

/-- `byte_packing_log`: the memory operations and the packing operation that are pushed. `witness/util.rs:350-380`. -/
def packLog (clock ctx seg virt : ℕ) (bytes : List ℕ) : List MemOp × List Op :=
  if bytes.isEmpty then ([], [])
  else (pushBytes true ctx seg (clock * 5 + 1 + 0) virt bytes, [⟨true, ctx, seg, virt, clock * 5 + 1, bytes⟩])

/-- The bytes of `byte_unpacking_log`: little-endian bytes, resized, reversed. `witness/util.rs:390-393`. -/
def unpackBytes (val len : ℕ) : List ℕ :=
  let le := (List.range 32).map (fun i => val / 256 ^ i % 256)
  (le.take len ++ List.replicate (len - 32) 0).reverse

/-- `byte_unpacking_log`. `witness/util.rs:382-412`. -/
def unpackLog (clock ctx seg virt val len : ℕ) : List MemOp × List Op :=
  (pushBytes false ctx seg (clock * 5 + 1 + 0) virt (unpackBytes val len), [⟨false, ctx, seg, virt, clock * 5 + 1, unpackBytes val len⟩])

/-- A memory operation as the table hands it over. -/
def MemOp.access (m : MemOp) : Access := ⟨if m.isRead then 1 else 0, m.ctx, m.seg, m.virt, m.value, m.ts⟩

theorem pushBytes_eq (isRead : Bool) (ctx seg ts : ℕ) (bytes : List ℕ) : ∀ virt, virt + bytes.length ≤ 2 ^ 64 →
    pushBytes isRead ctx seg ts virt bytes = (List.range bytes.length).map (fun p => ⟨isRead, ctx, seg, virt + p, bytes.getD p 0, ts⟩) := by
  induction bytes with
  | nil => intro _ _; rfl
  | cons b bs ih =>
    intro virt hv
    rw [List.length_cons] at hv
    rw [List.length_cons, List.range_succ_eq_map, List.map_cons, List.map_map, pushBytes]
    cases bs with
    | nil => rfl
    | cons c cs =>
      rw [ih _ (by unfold increment; rw [List.length_cons] at hv ⊢; omega)]
      congr 1
      refine List.map_congr_left (fun p _ => ?_)
      have : increment virt = virt + 1 := by unfold increment; rw [List.length_cons] at hv; omega
      simp only [Function.comp, this, List.getD_cons_succ]
      rw [show virt + 1 + p = virt + (p + 1) by omega]

theorem byteBE_beNat {bytes : List ℕ} (hb : ∀ b ∈ bytes, b < 256) {p : ℕ} (hp : p < bytes.length) :
    byteBE bytes.length (beNat bytes) p = bytes.getD p 0 := by
  have h := beNat_digit bytes.reverse (fun b hb' => hb b (List.mem_reverse.1 hb')) (bytes.length - 1 - p)
  rw [List.reverse_reverse] at h
  rw [byteBE, h, List.getD_eq_getElem _ _ (by rw [List.length_reverse]; omega), List.getElem_reverse, List.getD_eq_getElem _ _ hp]
  congr 1
  omega

theorem push_access {isRead : Bool} {ctx seg ts virt : ℕ} {bytes : List ℕ} (hv : virt + bytes.length ≤ 2 ^ 64) (hb : ∀ b ∈ bytes, b < 256) :
    (pushBytes isRead ctx seg ts virt bytes).map MemOp.access =
      (List.range bytes.length).map (Op.packed ⟨isRead, ctx, seg, virt, ts, bytes⟩).access := by
  rw [pushBytes_eq _ _ _ _ _ _ hv, List.map_map]
  refine List.map_congr_left (fun p hp => ?_)
  have hp := List.mem_range.1 hp
  unfold Packed.access
  show MemOp.access _ = Access.mk _ _ _ _ ((byteBE bytes.length (beNat bytes) p : ℕ) : F) _
  rw [byteBE_beNat hb hp]
  unfold MemOp.access Op.packed
  simp only [Nat.cast_add]

/-- Property C88, reading: the memory operations logged for reading bytes are the accesses the table makes for the packed sequence that is logged
with them, and the word of this sequence is the number the bytes stand for. Nothing is logged for no bytes. -/
theorem C88_pack (clock ctx seg virt : ℕ) (bytes : List ℕ) (hv : virt + bytes.length ≤ 2 ^ 64) (hb : ∀ b ∈ bytes, b < 256) :
    ((packLog clock ctx seg virt bytes).1.map MemOp.access =
      ((packLog clock ctx seg virt bytes).2.flatMap (fun op => (List.range op.packed.len).map op.packed.access))) ∧
    (packLog clock ctx seg virt bytes).2.map (fun op => (op.isRead, op.ctx, op.seg, op.virt, op.ts, op.packed.len, op.packed.value)) =
      if bytes = [] then [] else [(true, ctx, seg, virt, clock * 5 + 1, bytes.length, beNat bytes)] := by
  unfold packLog
  cases bytes with
  | nil => exact ⟨rfl, rfl⟩
  | cons b bs =>
    rw [if_neg (by simp), if_neg (by simp)]
    refine ⟨?_, rfl⟩
    rw [List.flatMap_cons, List.flatMap_nil, List.append_nil]
    exact push_access hv hb

theorem unpackBytes_spec {val len : ℕ} (hl : len ≤ 32) : (unpackBytes val len).length = len ∧ (∀ b ∈ unpackBytes val len, b < 256) ∧
    beNat (unpackBytes val len) = val % 256 ^ len := by
  have he : unpackBytes val len = ((List.range len).map (fun i => val / 256 ^ i % 256)).reverse := by
    unfold unpackBytes
    simp only
    rw [show len - 32 = 0 by omega, List.replicate_zero, List.append_nil, ← List.map_take, List.take_range, min_eq_left hl]
  rw [he]
  refine ⟨by simp, fun b hb => ?_, ?_⟩
  · rw [List.mem_reverse, List.mem_map] at hb
    obtain ⟨i, -, rfl⟩ := hb
    exact Nat.mod_lt _ (by decide)
  · clear he hl
    have key : ∀ (len val : ℕ), beNat ((List.range len).map (fun i => val / 256 ^ i % 256)).reverse = val % 256 ^ len := by
      intro len
      induction len with
      | zero => intro val; simp [beNat, Nat.mod_one]
      | succ m ih =>
        intro val
        rw [List.range_succ_eq_map, List.map_cons, List.map_map, List.reverse_cons, beNat_append,
          show ((fun i => val / 256 ^ i % 256) ∘ Nat.succ) = (fun i => val / 256 / 256 ^ i % 256) from by
            funext i; simp only [Function.comp, Nat.succ_eq_add_one]; rw [pow_succ', Nat.div_div_eq_div_mul], ih]
        rw [pow_succ', Nat.mod_mul]
        simp only [pow_zero, Nat.div_one]
        ring
    exact key len val

/-- Property C88, writing: the memory operations logged for writing `len` bytes of a word are the accesses the table makes for the packed sequence
that is logged with them, and the word of this sequence is what the lowest `len` bytes of the word hold. -/
theorem C88_unpack (clock ctx seg virt val len : ℕ) (hl : len ≤ 32) (hv : virt + len ≤ 2 ^ 64) :
    ((unpackLog clock ctx seg virt val len).1.map MemOp.access =
      ((unpackLog clock ctx seg virt val len).2.flatMap (fun op => (List.range op.packed.len).map op.packed.access))) ∧
    (unpackLog clock ctx seg virt val len).2.map (fun op => (op.isRead, op.ctx, op.seg, op.virt, op.ts, op.packed.len, op.packed.value)) =
      [(false, ctx, seg, virt, clock * 5 + 1, len, val % 256 ^ len)] := by
  obtain ⟨h1, h2, h3⟩ := unpackBytes_spec (val := val) hl
  unfold unpackLog
  constructor
  · rw [List.flatMap_cons, List.flatMap_nil, List.append_nil]
    exact push_access (by rw [h1]; exact hv) h2
  · rw [List.map_cons, List.map_nil]
    show [(false, ctx, seg, virt, clock * 5 + 1, (unpackBytes val len).length, beNat (unpackBytes val len))] = _
    rw [h1, h3]

/-- So a word written with fewer bytes than it has is looked up by the CPU in vain: no accepted table exports it. -/
theorem C88_oversized {n : ℕ} {T : ℕ → Row F} (h : Accepted n T) (hn : 32 * n < P) {e : Packed} (hlt : 256 ^ e.len ≤ e.value) : ¬ Exports n T e :=
  fun he => absurd (C87_exports h hn he).2.2.1 (by omega)

/-! ### Examples -/

/-- Three bytes that are read, and the word 0x0102 written with two bytes. -/
def demoOps : List Op := (packLog 7 0 3 100 [1, 2, 3]).2 ++ (packLog 8 0 3 0 []).2 ++ (unpackLog 9 1 2 50 0x0102 2).2

/-- The hypotheses of C87 and C88 are met by the table of these two sequences: the second byte of the first is read at the second address. -/
example : Accesses (height demoOps 0) (traceRow (height demoOps 0) demoOps) ⟨1, 0, 3, 100 + 1, 2, 36⟩ := by
  have h := C88_table demoOps 0 (by decide) ⟨⟨true, 0, 3, 100, 36, [1, 2, 3]⟩, by decide⟩
  have h1 := h.2 ⟨true, 0, 3, 100, 36, [1, 2, 3]⟩ (by decide) (by decide)
  have hh : height demoOps 0 = 256 := by
    have : Nat.clog 2 256 = 8 := Nat.clog_pow 2 8 (by decide)
    show 2 ^ Nat.clog 2 256 = 256
    rw [this]; decide
  have := (C87_exports h.1 (by rw [hh]; decide) h1).2.2.2 1 (by decide)
  have e : (Op.packed ⟨true, 0, 3, 100, 36, [1, 2, 3]⟩).access 1 = ⟨1, 0, 3, 100 + 1, 2, 36⟩ := by decide +kernel
  rwa [e] at this

end Verif.Stark.BytePacking
