import Verif.Stark.Memory.Table
import Verif.Stark.Logic

/-! Generation of the memory table. `evm_arithmetization/src/memory/memory_stark.rs`, `witness/memory.rs`. -/

namespace Verif.Stark.Memory

open Finset

/-- `MemoryOp`, with the fields of its `MemoryAddress`. `witness/memory.rs:40-44, 87-95`. Machine integers and 256-bit words are natural numbers. -/
structure Op where
  filter : Bool
  ts : ℕ
  ctx : ℕ
  seg : ℕ
  virt : ℕ
  read : Bool
  value : ℕ
  deriving DecidableEq

/-- An address: context, segment and offset. `MemoryAddress`, `witness/memory.rs:39-43`. -/
abbrev Addr : Type := ℕ × ℕ × ℕ

/-- The address of an operation. -/
def Op.addr (o : Op) : Addr := (o.ctx, o.seg, o.virt)

/-- The order of `sorting_key`: context, segment, offset, timestamp. `witness/memory.rs:146-153`. -/
def Op.le (a b : Op) : Bool :=
  decide (a.ctx < b.ctx ∨ a.ctx = b.ctx ∧ (a.seg < b.seg ∨ a.seg = b.seg ∧ (a.virt < b.virt ∨ a.virt = b.virt ∧ a.ts ≤ b.ts)))

/-- `sort_by_key`, which is stable. `memory_stark.rs:211, 216, 222`. -/
def sorted (ops : List Op) : List Op := ops.mergeSort Op.le

/-- `new_dummy_read` at another offset. `witness/memory.rs:131-143`. -/
def Op.dummy (o : Op) (virt ts value : ℕ) : Op := ⟨false, ts, o.ctx, o.seg, virt, true, value⟩

/-- The loop of `fill_gaps` for a new context or segment. `memory_stark.rs:330-337`. The fuel is the offset, which each turn lowers by at least one, as
`m` is not zero when there are two operations. -/
def fillDown (m ts : ℕ) : ℕ → Op → List Op
  | 0, _ => []
  | fuel + 1, next => if next.virt > m then
      let d := next.dummy (next.virt - m) (ts + 1) 0
      d :: fillDown m ts fuel d
    else []

/-- The loop for a new offset. `memory_stark.rs:339-346`. -/
def fillUp (m virt : ℕ) : ℕ → Op → List Op
  | 0, _ => []
  | fuel + 1, curr => if virt - curr.virt - 1 > m then
      let d := curr.dummy (curr.virt + (m + 1)) (curr.ts + 1) 0
      d :: fillUp m virt fuel d
    else []

/-- The loop for the same address. `memory_stark.rs:348-353`. -/
def fillTime (m ts : ℕ) : ℕ → Op → List Op
  | 0, _ => []
  | fuel + 1, curr => if ts - curr.ts > m then
      let d := curr.dummy curr.virt (curr.ts + m) curr.value
      d :: fillTime m ts fuel d
    else []

/-- The dummy reads `fill_gaps` pushes for two neighbours. `memory_stark.rs:318-354`. -/
def fillPair (m : ℕ) (curr next : Op) : List Op :=
  if curr.ctx ≠ next.ctx ∨ curr.seg ≠ next.seg then fillDown m curr.ts next.virt next
  else if curr.virt ≠ next.virt then fillUp m next.virt next.virt curr
  else fillTime m next.ts next.ts curr

/-- The dummy reads for all neighbours. `tuple_windows`, `memory_stark.rs:317`. -/
def fillAll (m : ℕ) : List Op → List Op
  | a :: b :: t => fillPair m a b ++ fillAll m (b :: t)
  | _ => []

/-- The first operation of `fill_gaps`: a dummy read of address zero. `memory_stark.rs:298-315`. -/
def zeroRead : Op := ⟨false, 1, 0, 0, 0, true, 0⟩

/-- The operations with the first dummy read, if it is needed. `memory_stark.rs:298-315`. -/
def withZero (ops : List Op) : List Op :=
  match ops with
  | [] => []
  | o :: t => if o.virt ≠ 0 then zeroRead :: o :: t else o :: t

/-- `fill_gaps`. `memory_stark.rs:295-356`. -/
def fillGaps (ops : List Op) : List Op :=
  let ops' := withZero ops
  ops' ++ fillAll (Logic.nextPow ops'.length - 1) ops'

/-- The padding operation. `memory_stark.rs:359-377`. -/
def Op.pad (o : Op) : Op := ⟨false, o.ts + 1, o.ctx, o.seg, o.virt + 1, true, 0⟩

/-- `pad_memory_ops`. `memory_stark.rs:358-385`. Panics without operations. -/
def padOps (ops : List Op) : Option (List Op) :=
  ops.getLast?.map (fun o => ops ++ List.replicate (Logic.nextPow (ops.length + 1) - ops.length) o.pad)

/-- The operations of the table's rows: the first lines of `generate_trace_row_major`. `memory_stark.rs:206-222`. `fill_gaps` panics without
operations. -/
def finalOps (ops : List Op) : Option (List Op) :=
  if ops = [] then none else (padOps (sorted (fillGaps (sorted ops)))).map sorted

/-- `into_row`. `memory_stark.rs:110-129`. The default row is zero; the inverse of zero is zero. -/
def intoRow (o : Op) : Row F := fun c =>
  if c = FILTER then (if o.filter then 1 else 0)
  else if c = TIMESTAMP then (o.ts : F)
  else if c = TIMESTAMP_INV then (o.ts : F)⁻¹
  else if c = IS_READ then (if o.read then 1 else 0)
  else if c = ADDR_CONTEXT then (o.ctx : F)
  else if c = ADDR_SEGMENT then (o.seg : F)
  else if c = ADDR_VIRTUAL then (o.virt : F)
  else if c < 15 then ((o.value / 2 ^ (32 * (c - 7)) % 2 ^ 32 : ℕ) : F)
  else 0

/-- `generate_first_change_flags_and_rc` for a row `lv` and the row `nv` after it. `memory_stark.rs:134-199`. `last`: the row is the last one. -/
def flagged (last : Bool) (lv nv : Row F) : Row F := fun c =>
  let ctxChange := lv ADDR_CONTEXT ≠ nv ADDR_CONTEXT
  let segChange := lv ADDR_SEGMENT ≠ nv ADDR_SEGMENT ∧ ¬ ctxChange
  let virtChange := lv ADDR_VIRTUAL ≠ nv ADDR_VIRTUAL ∧ ¬ segChange ∧ ¬ ctxChange
  let cf : F := if ctxChange then 1 else 0
  let sf : F := if segChange then 1 else 0
  let vf : F := if virtChange then 1 else 0
  let aux := (nv ADDR_SEGMENT - (ACCOUNTS_LINKED_LIST : F)) * (nv ADDR_SEGMENT - (STORAGE_LINKED_LIST : F))
  let pre := (nv ADDR_SEGMENT - (CODE : F)) * (nv ADDR_SEGMENT - (TRIE_DATA : F)) * aux
  if c = CONTEXT_FIRST_CHANGE then cf
  else if c = SEGMENT_FIRST_CHANGE then sf
  else if c = VIRTUAL_FIRST_CHANGE then vf
  else if c = RANGE_CHECK then
    (if last then 0
     else if ctxChange then nv ADDR_CONTEXT - lv ADDR_CONTEXT - 1
     else if segChange then nv ADDR_SEGMENT - lv ADDR_SEGMENT - 1
     else if virtChange then nv ADDR_VIRTUAL - lv ADDR_VIRTUAL - 1
     else nv TIMESTAMP - lv TIMESTAMP)
  else if c = PREINITIALIZED_AUX then aux
  else if c = PREINITIALIZED then pre
  else if c = INITIALIZE_AUX then pre * (cf + sf + vf) * nv IS_READ
  else lv c

/-- The rows of `generate_trace_row_major`. `memory_stark.rs:224-229`. -/
def baseRow (L : List Op) (i : ℕ) : Row F :=
  let row := fun k => intoRow (L.getD k zeroRead)
  flagged (i + 1 == L.length) (row i) (row ((i + 1) % L.length))

/-- The row after `insert_stale_contexts`. `memory_stark.rs:387-405`. The list has no duplicates (a debug assertion). -/
def staleRow (L : List Op) (stale : List ℕ) (i : ℕ) : Row F := fun c =>
  if c = STALE_CONTEXTS then (if i ∈ stale then (i : F) + 1 else 0)
  else if c = IS_PRUNED then (if i ∈ stale then 1 else 0)
  else baseRow L i c

/-- Whether `generate_trace_col_major` marks the row as stale: the stale contexts' entry at the index of the row's context. `memory_stark.rs:258-260`. -/
def marked (L : List Op) (stale : List ℕ) (i : ℕ) : Prop :=
  baseRow L i ADDR_CONTEXT + 1 = staleRow L stale (baseRow L i ADDR_CONTEXT).val STALE_CONTEXTS

instance (L : List Op) (stale : List ℕ) (i : ℕ) : Decidable (marked L stale i) := by unfold marked; infer_instance

/-- The indices whose range check frequency row `i` raises by one. `memory_stark.rs:244-256`. -/
def raised (L : List Op) (i : ℕ) : List ℕ :=
  (baseRow L i RANGE_CHECK).val ::
    (if baseRow L i CONTEXT_FIRST_CHANGE = 1 ∨ baseRow L i SEGMENT_FIRST_CHANGE = 1 then
      [if i < L.length - 1 then (baseRow L (i + 1) ADDR_VIRTUAL).val else 0]
    else [])

/-- The value of the row may have to be handed over. `memory_stark.rs:263-267`. -/
def lastHere (L : List Op) (i : ℕ) : Prop :=
  baseRow L i FILTER = 1 ∧ (baseRow L i CONTEXT_FIRST_CHANGE = 1 ∨ baseRow L i SEGMENT_FIRST_CHANGE = 1 ∨ baseRow L i VIRTUAL_FIRST_CHANGE = 1)

instance (L : List Op) (i : ℕ) : Decidable (lastHere L i) := by unfold lastHere; infer_instance

/-- Its value is not zero or its segment is one of `PREINITIALIZED_SEGMENTS_INDICES`. `memory_stark.rs:271-280`, `memory/segments.rs:92-97`. -/
def keeps (L : List Op) (i : ℕ) : Prop :=
  (∃ j < 8, baseRow L i (VALUE + j) ≠ 0) ∨ (baseRow L i ADDR_SEGMENT).val ∈ [CODE, TRIE_DATA, ACCOUNTS_LINKED_LIST, STORAGE_LINKED_LIST]

instance (L : List Op) (i : ℕ) : Decidable (keeps L i) := by unfold keeps; infer_instance

/-- The rows of the table. `generate_trace_col_major`, `memory_stark.rs:236-281`; the loops that raise frequencies are written as numbers of
occurrences. -/
def traceRow (L : List Op) (stale : List ℕ) (i : ℕ) : Row F := fun c =>
  if c = COUNTER then (i : F)
  else if c = FREQUENCIES then ((((List.range L.length).flatMap (raised L)).count i : ℕ) : F)
  else if c = IS_STALE then (if marked L stale i then 1 else 0)
  else if c = STALE_FREQUENCIES then
    (((List.range L.length).countP (fun k => marked L stale k ∧ (baseRow L k ADDR_CONTEXT).val = i) : ℕ) : F)
  else if c = MAYBE_IN_MEM_AFTER then (if ¬ marked L stale i ∧ lastHere L i then 1 else 0)
  else if c = MEM_AFTER_FILTER then (if ¬ marked L stale i ∧ lastHere L i ∧ keeps L i then 1 else 0)
  else staleRow L stale i c

/-- No index is out of bounds and no assertion fails. `memory_stark.rs:181-185, 245, 252, 260, 404`. -/
def inBounds (L : List Op) (stale : List ℕ) : Prop :=
  (∀ i < L.length, ∀ x ∈ raised L i, x < L.length) ∧ (∀ i < L.length, (baseRow L i ADDR_CONTEXT).val < L.length) ∧ ∀ c ∈ stale, c < L.length

instance (L : List Op) (stale : List ℕ) : Decidable (inBounds L stale) := by unfold inBounds; infer_instance

/-- The write of an initial value. `memory_stark.rs:417-425`. -/
def initial (v : Addr × ℕ) : Op := ⟨true, 0, v.1.1, v.1.2.1, v.1.2.2, false, v.2⟩

/-- A generated table: its rows, its height and the rows handed over to the final memory. -/
structure Trace where
  height : ℕ
  row : ℕ → Row F
  after : List (List F)

/-- The cells of a row that are handed over: one, the address and the value. `memory_stark.rs:449-456`. -/
def afterRow (r : Row F) : List F := 1 :: (List.range 11).map (fun k => r (ADDR_CONTEXT + k))

/-- `generate_trace`. `memory_stark.rs:407-462`. `none` stands for a panic. -/
def generate (ops : List Op) (before : List (Addr × ℕ)) (stale : List ℕ) : Option Trace :=
  match finalOps (ops ++ before.map initial) with
  | none => none
  | some L => if inBounds L stale then
      some ⟨L.length, traceRow L stale, ((List.range L.length).filter (fun i => traceRow L stale i MEM_AFTER_FILTER = 1)).map
        (fun i => afterRow (traceRow L stale i))⟩
    else none

end Verif.Stark.Memory
