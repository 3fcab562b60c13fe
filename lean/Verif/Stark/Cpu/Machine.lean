import Verif.Stark.Cpu.Ops
import Verif.Stark.Arith.Export

/-! C95: what instructions do to the stack and to memory. Specification. -/

namespace Verif.Stark.Cpu

/-! ### Memory -/

/-- The memory: a word for every context, segment and virtual address. -/
abbrev Mem := F × F × F → ℕ

/-- The eight limbs of a word. -/
def limbs (a : ℕ) : List F := (List.range 8).map (fun k => ((a / 2 ^ (32 * k) % 2 ^ 32 : ℕ) : F))

def MemOp.addr (m : MemOp) : F × F × F := (m.context, m.segment, m.virt)

/-- The operations are carried out one after the other: reads give what the memory holds, writes replace it by a word. -/
def Runs : Mem → List MemOp → Mem → Prop
  | M, [], M' => M' = M
  | M, m :: ms, M' => if m.isRead = 1 then m.value = limbs (M m.addr) ∧ Runs M ms M'
      else ∃ v < 2 ^ 256, m.value = limbs v ∧ Runs (Function.update M m.addr v) ms M'

/-! ### The stack -/

/-- The stack below the top is in memory, the lowest element at 0. -/
def Below (M : Mem) (ctx : F) : List ℕ → Prop
  | [] => True
  | a :: S => M (ctx, SEG_STACK, (S.length : F)) = a ∧ Below M ctx S

/-- The stack is `S`, top first: the top is in channel 0, the rest in memory. -/
structure OnStack (M : Mem) (r : Row F) (S : List ℕ) : Prop where
  len : r STACK_LEN = (S.length : F)
  top : ∀ a, S.head? = some a → Holds r 0 a
  below : Below M (r CONTEXT) S.tail

/-- The address in a word: virtual address, segment and context in the limbs 0, 1 and 2. -/
def addrOf (a : ℕ) : F × F × F := (((a / 2 ^ 64 % 2 ^ 32 : ℕ) : F), ((a / 2 ^ 32 % 2 ^ 32 : ℕ) : F), ((a % 2 ^ 32 : ℕ) : F))

/-- Address 0 of the context's shift table and so on hold the powers of two, and nothing from 256 on. -/
def ShiftTable (M : Mem) : Prop := ∀ a : ℕ, a < 2 ^ 32 → M (0, SEG_SHIFT_TABLE, (a : F)) = if a < 256 then 2 ^ a else 0

/-- The number of elements the instruction needs. -/
def needs (o : ℕ) : ℕ :=
  if o ∈ [0x08, 0x09, 0x0f] then 3
  else if o ∈ [0x15, 0x19, 0x50, 0x56, 0xf7, 0xf9, 0xfb] then 1
  else if o ∈ [0x58, 0x5b, 0x5f, 0xee, 0xf6] ∨ (0x60 ≤ o ∧ o < 0x80) then 0
  else if 0x80 ≤ o ∧ o < 0x90 then o - 0x80 + 1
  else if 0x90 ≤ o ∧ o < 0xa0 then o - 0x90 + 2
  else 2

/-- What `o`, executed at `pc` in the context `ctx` with memory `M`, does to the stack. (After the Yellow Paper; `OpSpec` and `LogicSpec`
are those of the arithmetic and logic tables.) -/
def StackSpec (o pc ctx : ℕ) (M : Mem) (S S' : List ℕ) : Prop :=
  if o ∈ [0x01, 0x02, 0x03, 0x04, 0x06, 0x0c, 0x0d, 0x0e, 0x10, 0x11, 0x1a] then
    ∃ a b R out, S = a :: b :: R ∧ Arith.OpSpec o a b 0 out ∧ S' = out :: R
  else if o ∈ [0x1b, 0x1c] then ∃ a b R out, S = a :: b :: R ∧ Arith.OpSpec o a b (if a < 256 then 2 ^ a else 0) out ∧ S' = out :: R
  else if o ∈ [0x08, 0x09, 0x0f] then ∃ a b c R out, S = a :: b :: c :: R ∧ Arith.OpSpec o a b c out ∧ S' = out :: R
  else if o ∈ [0x16, 0x17, 0x18] then ∃ a b R out, S = a :: b :: R ∧ Logic.LogicSpec o a b out ∧ S' = out :: R
  else if o = 0x14 then ∃ a b R, S = a :: b :: R ∧ S' = (if a = b then 1 else 0) :: R
  else if o = 0x15 then ∃ a R, S = a :: R ∧ S' = (if a = 0 then 1 else 0) :: R
  else if o = 0x19 then ∃ a R, S = a :: R ∧ S' = (2 ^ 256 - 1 - a) :: R
  else if o = 0x50 ∨ o = 0x56 ∨ o = 0xf9 then ∃ a, S = a :: S'
  else if o = 0x57 ∨ o = 0xfc then ∃ a b, S = a :: b :: S'
  else if o = 0x58 then S' = pc :: S
  else if o = 0x5b then S' = S
  else if o = 0x5f then S' = 0 :: S
  else if 0x80 ≤ o ∧ o < 0x90 then ∃ A a B, A.length = o - 0x80 ∧ S = A ++ a :: B ∧ S' = a :: S
  else if 0x90 ≤ o ∧ o < 0xa0 then ∃ a A b B, A.length = o - 0x90 ∧ S = a :: A ++ b :: B ∧ S' = b :: A ++ a :: B
  else if o = 0xee then ∃ a, S' = a :: S
  else if o = 0xf6 then S' = ctx * 2 ^ 64 :: S
  else if o = 0xfb then ∃ a R, S = a :: R ∧ S' = M (addrOf a) :: R
  else True

/-- What `o` does to memory outside the stack of its context. -/
def MemSpec (o : ℕ) (ctx : F) (S : List ℕ) (M M' : Mem) : Prop :=
  ∀ x : F × F × F, ¬ (x.1 = ctx ∧ x.2.1 = SEG_STACK) →
    M' x = if o = 0xfc ∧ S.tail.head?.map addrOf = some x then S.headD 0 else M x

/-- The instructions of C95: all but those whose operands or results come from the byte packing and Keccak sponge tables, and SET_CONTEXT. -/
def machineOps : List ℕ := [0x01, 0x02, 0x03, 0x04, 0x06, 0x0c, 0x0d, 0x0e, 0x10, 0x11, 0x1a, 0x1b, 0x1c, 0x08, 0x09, 0x0f, 0x16, 0x17, 0x18, 0x14, 0x15, 0x19,
  0x50, 0x56, 0xf9, 0x57, 0xfc, 0x58, 0x5b, 0x5f, 0xee, 0xf6, 0xfb] ++ List.range' 0x80 32

/-- The tables: a CPU table of height `n`, with an arithmetic table and a logic table that answer its lookups. -/
structure System (L : Labels) (n : ℕ) (T : ℕ → Row F) where
  m : ℕ
  A : ℕ → Row F
  m' : ℕ
  B : ℕ → Row F
  cpu : Accepted L n T
  arith : Arith.Accepted m A
  small : m < P
  arithLink : ArithLinked n T m A
  logic : Satisfies Logic.evalLogic m' B
  logicLink : LogicLinked n T m' B

/-- A row executes `o` on the stack `S` with memory `M` and leaves memory `M'`. -/
structure Executes (lv nv : Row F) (o : ℕ) (M M' : Mem) (S : List ℕ) : Prop where
  valid : ∃ f ∈ flags, lv f = 1 ∧ Valid f o (kernel lv)
  op : op lv = o
  words : ∀ x, M x < 2 ^ 256
  shift : ShiftTable M
  stack : OnStack M lv S
  enough : needs o ≤ S.length
  fits : S.length + 1 < P
  pc : (lv PC).val < 2 ^ 32
  ctx : (lv CONTEXT).val < 2 ^ 32
  store : o = 0xfc → ∀ a, S.tail.head? = some a → ¬ ((addrOf a).1 = lv CONTEXT ∧ (addrOf a).2.1 = SEG_STACK)
  runs : Runs M (rowOps lv nv) M'

/-- C95 in full: every instruction does to the stack and to memory what the specification says. -/
def C95_statement : Prop :=
  ∀ (L : Labels) (n : ℕ) (T : ℕ → Row F), System L n T → ∀ i, i + 1 < n → ∀ o ∈ machineOps, ∀ (M M' : Mem) (S : List ℕ),
    Executes (T i) (T (i + 1)) o M M' S →
    ∃ S', StackSpec o (T i PC).val (T i CONTEXT).val M S S' ∧ OnStack M' (T (i + 1)) S' ∧ MemSpec o (T i CONTEXT) S M M'

end Verif.Stark.Cpu
