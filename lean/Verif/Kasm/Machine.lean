/-! The machine on which the kernel's assembly runs: the items an assembly file is made of,
and what a run of items does to the stack, the memory and the prover's inputs.  The items are
those of `evm_arithmetization/src/cpu/kernel/ast.rs:16-58`; their effects are those of
`evm_arithmetization/src/witness/operation.rs` and `witness/transition.rs`, in kernel mode.

Simplifications.  The code is not laid out in bytes: a label stands for the list of items that
follow it (its own block, then the next one, and so on), and an address is only what `PUSH`
of a label pushes and a jump takes back.  The stack is a list instead of the `Stack` segment
of the memory.  Gas of kernel instructions, which is zero, and the clock are left out.  An
error in kernel mode, which makes proof generation fail, is the outcome `stuck`. -/

namespace Verif.Kasm

/-! ### Words -/

/-- `arithmetic/mod.rs:46`: `overflowing_add`. -/
def wadd (a b : Nat) : Nat := (a + b) % 2 ^ 256
/-- `arithmetic/mod.rs:47`: `overflowing_mul`. -/
def wmul (a b : Nat) : Nat := (a * b) % 2 ^ 256
/-- `arithmetic/mod.rs:55`: `overflowing_sub`. -/
def wsub (a b : Nat) : Nat := (a + 2 ^ 256 - b) % 2 ^ 256
/-- `arithmetic/mod.rs:56-62`: zero when the divisor is. -/
def wdiv (a b : Nat) : Nat := if b = 0 then 0 else a / b
/-- `arithmetic/mod.rs:70-76`. -/
def wmod (a b : Nat) : Nat := if b = 0 then 0 else a % b
/-- `arithmetic/mod.rs:77`. -/
def wlt (a b : Nat) : Nat := if a < b then 1 else 0
/-- `arithmetic/mod.rs:78`. -/
def wgt (a b : Nat) : Nat := if a > b then 1 else 0
/-- `witness/operation.rs:813-829`. -/
def weq (a b : Nat) : Nat := if a = b then 1 else 0
/-- `witness/operation.rs:625-650`. -/
def wiszero (a : Nat) : Nat := if a = 0 then 1 else 0
/-- `witness/operation.rs:601-608`. -/
def wnot (a : Nat) : Nat := 2 ^ 256 - 1 - a
/-- `logic.rs`: bitwise AND. -/
def wand (a b : Nat) : Nat := a &&& b
/-- `logic.rs`: bitwise OR. -/
def wor (a b : Nat) : Nat := a ||| b
/-- `logic.rs`: bitwise XOR. -/
def wxor (a b : Nat) : Nat := a ^^^ b
/-- `witness/operation.rs:691-705`: the first operand is the amount. -/
def wshl (s a : Nat) : Nat := if 255 < s then 0 else (a * 2 ^ s) % 2 ^ 256
/-- `witness/operation.rs:707-720`. -/
def wshr (s a : Nat) : Nat := if 255 < s then 0 else a / 2 ^ s
/-- `arithmetic/mod.rs:82-88`: byte `i`, the most significant being number 0. -/
def wbyte (i a : Nat) : Nat := if 32 ≤ i then 0 else a / 256 ^ (31 - i) % 256
/-- `util.rs:138-146`. -/
def waddmod (a b m : Nat) : Nat := if m = 0 then 0 else (a + b) % m
/-- `util.rs:148-156`. -/
def wmulmod (a b m : Nat) : Nat := if m = 0 then 0 else (a * b) % m
/-- `util.rs:158-169`: adding `m` to `a` until it is not below `b` gives the same residue as
adding `m * b`. -/
def wsubmod (a b m : Nat) : Nat := if m = 0 then 0 else (a + m * b - b) % m
/-- `extension_tower.rs:20-26`: the base field of BN254. -/
def bnBase : Nat := 0x30644e72e131a029b85045b68181585d97816a916871ca8d3c208c16d87cfd47

/-! ### Items -/

/-- What `PUSH` may push (`ast.rs:146-153`): a literal (constants `@X` are already looked up
in `cpu/kernel/constants/`) or the address of a label. -/
inductive Tgt where
  | lit (n : Nat)
  | lab (l : String)
  deriving DecidableEq, Repr

/-- An entry of the right-hand side of `%stack` (`ast.rs:124-143`): an element of the matched
part of the stack, counted from the top, or a target. -/
inductive Src where
  | e (i : Nat)
  | t (x : Tgt)
  deriving DecidableEq, Repr

/-- Items (`ast.rs:16-58`), after macro expansion.  A `%stack` manipulation is one item: the
assembler's compilation of it into stack instructions is the subject of C46. -/
inductive I where
  | push (t : Tgt)
  | pop
  | dup (n : Nat)
  | swap (n : Nat)
  | stk (n : Nat) (rs : List Src)
  | un (f : Nat → Nat)
  | bin (f : Nat → Nat → Nat)
  | ter (f : Nat → Nat → Nat → Nat)
  | jump
  | jumpi
  | mload
  | mstore
  | mload32
  | mstore32 (n : Nat)
  | getCtx
  | keccak
  | input (name : String)
  | exitK
  | panic
  | nop
  | other (name : String)

abbrev PUSH (n : Nat) : I := .push (.lit n)
abbrev PUSHL (l : String) : I := .push (.lab l)
abbrev POP : I := .pop
abbrev DUP (n : Nat) : I := .dup n
abbrev SWAP (n : Nat) : I := .swap n
abbrev STK (n : Nat) (rs : List Src) : I := .stk n rs
abbrev ADD : I := .bin wadd
abbrev MUL : I := .bin wmul
abbrev SUB : I := .bin wsub
abbrev DIV : I := .bin wdiv
abbrev MOD : I := .bin wmod
abbrev LT : I := .bin wlt
abbrev GT : I := .bin wgt
abbrev EQ : I := .bin weq
abbrev AND : I := .bin wand
abbrev OR : I := .bin wor
abbrev XOR : I := .bin wxor
abbrev SHL : I := .bin wshl
abbrev SHR : I := .bin wshr
abbrev BYTE : I := .bin wbyte
abbrev ADDFP254 : I := .bin (fun a b => waddmod a b bnBase)
abbrev MULFP254 : I := .bin (fun a b => wmulmod a b bnBase)
abbrev SUBFP254 : I := .bin (fun a b => wsubmod a b bnBase)
abbrev ISZERO : I := .un wiszero
abbrev NOT : I := .un wnot
abbrev ADDMOD : I := .ter waddmod
abbrev MULMOD : I := .ter wmulmod
abbrev SUBMOD : I := .ter wsubmod
abbrev JUMP : I := .jump
abbrev JUMPI : I := .jumpi
abbrev MLOAD_GENERAL : I := .mload
abbrev MSTORE_GENERAL : I := .mstore
abbrev MLOAD_32BYTES : I := .mload32
abbrev MSTORE_32BYTES (n : Nat) : I := .mstore32 n
abbrev GET_CONTEXT : I := .getCtx
abbrev KECCAK_GENERAL : I := .keccak
abbrev INPUT (name : String) : I := .input name
abbrev EXIT_KERNEL : I := .exitK
abbrev PANIC : I := .panic
abbrev JUMPDEST : I := .nop
abbrev OTHER (name : String) : I := .other name
abbrev SET_CONTEXT : I := .other "SET_CONTEXT"
abbrev GETPC : I := .other "GETPC"

/-- `%rep n … %endrep` (`assembler.rs:332-344`). -/
def rep : Nat → List I → List I
  | 0, _ => []
  | n + 1, c => c ++ rep n c

/-! ### States -/

/-- What the code can change apart from the stack: the memory, by bundled address
`context * 2^64 + segment * 2^32 + offset`; the current context; the values the prover will
supply, one after the other. -/
structure World where
  mem : Nat → Nat
  ctx : Nat
  inp : Nat → Nat

/-- The memory with one cell changed. -/
def World.set (w : World) (a v : Nat) : World :=
  { w with mem := fun b => if b = a then v else w.mem b }

/-- `witness/memory.rs:55-70`, `new_bundle`: the three low 32-bit limbs of the word. -/
def key (a : Nat) : Nat := a % 2 ^ 96

/-- `witness/memory.rs:64-68`: the segment must exist (there are 39, `segments.rs`). -/
def SegOk (a : Nat) : Prop := a / 2 ^ 32 % 2 ^ 32 < 39

instance (a : Nat) : Decidable (SegOk a) := inferInstanceAs (Decidable (_ < _))

/-- The `n` bytes from an address on, as `generate_mload_32bytes` and `generate_keccak_general`
read them (`low_u32() as u8`). -/
def bytesAt (w : World) (a n : Nat) : List Nat :=
  (List.range n).map fun i => w.mem (a + i) % 256

/-- Big-endian value of bytes. -/
def beVal (bs : List Nat) : Nat := bs.foldl (fun x b => x * 256 + b) 0

/-- `witness/util.rs:382-405`: the low `n` bytes of `v`, most significant first, at `a`. -/
def storeBytes (w : World) (a v : Nat) : Nat → World
  | 0 => w
  | n + 1 => (storeBytes w a (v / 256) n).set (a + n) (v % 256)

/-- The result of running some code: a jump, the return to user code with the popped
information word, a deliberate abort, or an error. -/
inductive Out where
  | goto (d : Nat) (s : List Nat) (w : World)
  | exit (info : Nat) (s : List Nat) (w : World)
  | panic
  | stuck

/-- A kernel: where its labels are, and the items from an address on.  `hash` is Keccak-256 of
a byte string, as a number (`generate_keccak_general`); it is not interpreted. -/
structure Prog where
  addr : String → Nat
  code : Nat → List I
  hash : List Nat → Nat

/-- The value of a `PUSH` operand. -/
def Tgt.val (P : Prog) : Tgt → Nat
  | .lit n => n
  | .lab l => P.addr l

/-- The value of an entry of `%stack`. -/
def Src.val (P : Prog) (s : List Nat) : Src → Nat
  | .e i => s.getD i 0
  | .t x => x.val P

/-- `SWAPn`: exchange the top with element `n` (`witness/operation.rs:572-599`). -/
def swapTop (n : Nat) (s : List Nat) : List Nat :=
  match s with
  | [] => []
  | a :: r => r.getD (n - 1) 0 :: r.set (n - 1) a

/-- Running items up to the next jump.
`witness/operation.rs`: pop 291-312, dup 507-570, swap 572-599, binary 92-121, ternary 123-140,
shifts 691-720, `MLOAD_GENERAL` 860-891, `MSTORE_GENERAL` 933-961 (value on top, then address),
`MLOAD_32BYTES` 893-931 (address on top, then length), `MSTORE_32BYTES` 963-981 (address on
top, then value; pushes the address after the bytes), `GET_CONTEXT` 335-369, `KECCAK_GENERAL`
142-173, `PROVER_INPUT` 263-289, `EXIT_KERNEL` 831-858.  `witness/transition.rs`: jumps
379-447 and 449-530; a jump consumes `dst`, then the condition.  Byte accesses that would leave
the segment (offset above 2^32) are errors here. -/
def exec (P : Prog) : List I → List Nat → World → Out
  | [], _, _ => .stuck
  | .push t :: c, s, w => exec P c (t.val P :: s) w
  | .pop :: c, _ :: s, w => exec P c s w
  | .dup n :: c, s, w => if n ≤ s.length then exec P c (s.getD (n - 1) 0 :: s) w else .stuck
  | .swap n :: c, s, w => if n < s.length then exec P c (swapTop n s) w else .stuck
  | .stk n rs :: c, s, w =>
      if n ≤ s.length then exec P c (rs.map (Src.val P s) ++ s.drop n) w else .stuck
  | .un f :: c, a :: s, w => exec P c (f a :: s) w
  | .bin f :: c, a :: b :: s, w => exec P c (f a b :: s) w
  | .ter f :: c, a :: b :: d :: s, w => exec P c (f a b d :: s) w
  | .jump :: _, d :: s, w => .goto d s w
  | .jumpi :: c, d :: b :: s, w => if b = 0 then exec P c s w else .goto d s w
  | .mload :: c, a :: s, w =>
      if SegOk a then exec P c (w.mem (key a) :: s) w else .stuck
  | .mstore :: c, v :: a :: s, w =>
      if SegOk a then exec P c s (w.set (key a) v) else .stuck
  | .mload32 :: c, a :: n :: s, w =>
      if SegOk a ∧ n ≤ 32 ∧ a % 2 ^ 32 + n ≤ 2 ^ 32 then
        exec P c (beVal (bytesAt w (key a) n) :: s) w
      else .stuck
  | .mstore32 n :: c, a :: v :: s, w =>
      if SegOk a ∧ a % 2 ^ 32 + n ≤ 2 ^ 32 then
        exec P c (wadd a n :: s) (storeBytes w (key a) v n)
      else .stuck
  | .getCtx :: c, s, w => exec P c (w.ctx * 2 ^ 64 :: s) w
  | .keccak :: c, a :: n :: s, w =>
      if SegOk a ∧ a % 2 ^ 32 + n ≤ 2 ^ 32 then
        exec P c (P.hash (bytesAt w (key a) n) :: s) w
      else .stuck
  | .input _ :: c, s, w => exec P c (w.inp 0 :: s) { w with inp := fun i => w.inp (i + 1) }
  | .exitK :: _, a :: s, w => .exit a s w
  | .panic :: _, _, _ => .panic
  | .nop :: c, s, w => exec P c s w
  | _, _, _ => .stuck

/-- From a jump to what it leads to.  A destination must fit in 32 bits
(`witness/transition.rs:383-385`). -/
inductive Reaches (P : Prog) : Out → Out → Prop where
  | refl (o : Out) : Reaches P o o
  | step {d : Nat} {s : List Nat} {w : World} {o : Out} :
      d < 2 ^ 32 → Reaches P (exec P (P.code d) s w) o → Reaches P (.goto d s w) o

theorem Reaches.trans {P : Prog} {a b c : Out} (h : Reaches P a b) (h' : Reaches P b c) :
    Reaches P a c := by
  induction h with
  | refl => exact h'
  | step hd _ ih => exact .step hd (ih h')

/-- Runs do not branch: an outcome that is not a jump is reached by no more than one. -/
theorem Reaches.unique {P : Prog} {a b c : Out} (h : Reaches P a b) (h' : Reaches P a c)
    (hb : ∀ d s w, b ≠ .goto d s w) (hc : ∀ d s w, c ≠ .goto d s w) : b = c := by
  induction h with
  | refl => cases h' with
    | refl => rfl
    | step => exact absurd rfl (hb _ _ _)
  | step hd _ ih => cases h' with
    | refl => exact absurd rfl (hc _ _ _)
    | step _ h'' => exact ih h'' hb

/-- A kernel contains this code: every label leads to its items, at an address of at most three
bytes (`assembler.rs:25`, `BYTES_PER_OFFSET`). -/
def Prog.Has (P : Prog) (code : List (String × List I)) : Prop :=
  ∀ p ∈ code, P.code (P.addr p.1) = p.2 ∧ P.addr p.1 < 2 ^ 24

theorem Prog.Has.mono {P : Prog} {a b : List (String × List I)} (h : P.Has b)
    (hs : ∀ p ∈ a, p ∈ b) : P.Has a := fun p hp => h p (hs p hp)

/-- Entering a label. -/
theorem Reaches.enter {P : Prog} {code : List (String × List I)} (hP : P.Has code) {l : String}
    {c : List I} {s : List Nat} {w : World} {o : Out} (hm : (l, c) ∈ code)
    (h : Reaches P (exec P c s w) o) : Reaches P (.goto (P.addr l) s w) o := by
  obtain ⟨h1, h2⟩ := hP _ hm
  simp only at h1 h2
  refine .step (by omega) ?_
  rw [h1]; exact h

/-- The kernel made of the given labels, numbered from 1 on. -/
def Prog.of (code : List (String × List I)) (hash : List Nat → Nat) : Prog where
  addr l := code.findIdx (·.1 == l) + 1
  code d := match code[d - 1]? with
    | some p => if d = 0 then [] else p.2
    | none => []
  hash := hash

/-- Such a kernel contains its code when the labels are distinct. -/
theorem Prog.of_has (code : List (String × List I)) (hash : List Nat → Nat)
    (hn : (code.map (·.1)).Nodup) (hl : code.length < 2 ^ 24 - 1) :
    (Prog.of code hash).Has code := by
  intro p hp
  have hlt : code.findIdx (·.1 == p.1) < code.length :=
    List.findIdx_lt_length_of_exists ⟨p, hp, by simp⟩
  refine ⟨?_, by simp only [Prog.of]; omega⟩
  have hg := List.findIdx_getElem (w := hlt)
  simp only [beq_iff_eq] at hg
  obtain ⟨j, hj, rfl⟩ := List.getElem_of_mem hp
  have he : code.findIdx (·.1 == (code[j]).1) = j := by
    have h1 : (code.map (·.1))[code.findIdx (·.1 == (code[j]).1)]'(by simpa using hlt)
        = (code.map (·.1))[j]'(by simpa using hj) := by simpa using hg
    exact (List.getElem_inj hn).1 h1
  simp only [Prog.of, Nat.add_sub_cancel, he, List.getElem?_eq_getElem hj]
  simp

/-! ### Rules for running code symbolically -/

section rules
variable {P : Prog} {c : List I} {s : List Nat} {w : World} {a b d e : Nat}

@[simp] theorem exec_push {n} : exec P (PUSH n :: c) s w = exec P c (n :: s) w := by simp only [exec, Tgt.val]
@[simp] theorem exec_pushL {l} : exec P (PUSHL l :: c) s w = exec P c (P.addr l :: s) w := by simp only [exec, Tgt.val]
@[simp] theorem exec_push' {t} : exec P (I.push t :: c) s w = exec P c (t.val P :: s) w := by simp only [exec, Tgt.val]
@[simp] theorem val_lit {n} : (Tgt.lit n).val P = n := rfl
@[simp] theorem val_lab {l} : (Tgt.lab l).val P = P.addr l := rfl
@[simp] theorem exec_pop : exec P (POP :: c) (a :: s) w = exec P c s w := by simp only [exec]
@[simp] theorem exec_un {f} : exec P (I.un f :: c) (a :: s) w = exec P c (f a :: s) w := by simp only [exec]
@[simp] theorem exec_bin {f} :
    exec P (I.bin f :: c) (a :: b :: s) w = exec P c (f a b :: s) w := by simp only [exec]
@[simp] theorem exec_ter {f} :
    exec P (I.ter f :: c) (a :: b :: d :: s) w = exec P c (f a b d :: s) w := by simp only [exec]
@[simp] theorem exec_jump : exec P (JUMP :: c) (d :: s) w = .goto d s w := by simp only [exec]
@[simp] theorem exec_jumpi :
    exec P (JUMPI :: c) (d :: b :: s) w = if b = 0 then exec P c s w else .goto d s w := by simp only [exec]
@[simp] theorem exec_getCtx :
    exec P (GET_CONTEXT :: c) s w = exec P c (w.ctx * 2 ^ 64 :: s) w := by simp only [exec]
@[simp] theorem exec_exit : exec P (EXIT_KERNEL :: c) (a :: s) w = .exit a s w := by simp only [exec]
@[simp] theorem exec_panic : exec P (PANIC :: c) s w = .panic := by simp only [exec]
@[simp] theorem exec_jumpdest : exec P (JUMPDEST :: c) s w = exec P c s w := by simp only [exec]
@[simp] theorem exec_input {n} : exec P (INPUT n :: c) s w
    = exec P c (w.inp 0 :: s) { w with inp := fun i => w.inp (i + 1) } := by simp only [exec]
theorem exec_mload (h : SegOk a) :
    exec P (MLOAD_GENERAL :: c) (a :: s) w = exec P c (w.mem (key a) :: s) w := by
  simp [exec, h]
theorem exec_mstore (h : SegOk a) :
    exec P (MSTORE_GENERAL :: c) (b :: a :: s) w = exec P c s (w.set (key a) b) := by
  simp [exec, h]
@[simp] theorem exec_stk {n rs} : exec P (STK n rs :: c) s w
    = if n ≤ s.length then exec P c (rs.map (Src.val P s) ++ s.drop n) w else .stuck := by simp only [exec]
@[simp] theorem src_e {i} : Src.val P s (.e i) = s.getD i 0 := rfl
@[simp] theorem src_t {t} : Src.val P s (.t t) = t.val P := rfl

@[simp] theorem exec_dup1 {P : Prog} {c : List I} {a0 : Nat} {s : List Nat} {w : World} :
    exec P (DUP 1 :: c) (a0 :: s) w
      = exec P c (a0 :: a0 :: s) w := by simp [exec]
@[simp] theorem exec_dup2 {P : Prog} {c : List I} {a0 a1 : Nat} {s : List Nat} {w : World} :
    exec P (DUP 2 :: c) (a0 :: a1 :: s) w
      = exec P c (a1 :: a0 :: a1 :: s) w := by simp [exec]
@[simp] theorem exec_dup3 {P : Prog} {c : List I} {a0 a1 a2 : Nat} {s : List Nat} {w : World} :
    exec P (DUP 3 :: c) (a0 :: a1 :: a2 :: s) w
      = exec P c (a2 :: a0 :: a1 :: a2 :: s) w := by simp [exec]
@[simp] theorem exec_dup4 {P : Prog} {c : List I} {a0 a1 a2 a3 : Nat} {s : List Nat} {w : World} :
    exec P (DUP 4 :: c) (a0 :: a1 :: a2 :: a3 :: s) w
      = exec P c (a3 :: a0 :: a1 :: a2 :: a3 :: s) w := by simp [exec]
@[simp] theorem exec_dup5 {P : Prog} {c : List I} {a0 a1 a2 a3 a4 : Nat} {s : List Nat} {w : World} :
    exec P (DUP 5 :: c) (a0 :: a1 :: a2 :: a3 :: a4 :: s) w
      = exec P c (a4 :: a0 :: a1 :: a2 :: a3 :: a4 :: s) w := by simp [exec]
@[simp] theorem exec_dup6 {P : Prog} {c : List I} {a0 a1 a2 a3 a4 a5 : Nat} {s : List Nat} {w : World} :
    exec P (DUP 6 :: c) (a0 :: a1 :: a2 :: a3 :: a4 :: a5 :: s) w
      = exec P c (a5 :: a0 :: a1 :: a2 :: a3 :: a4 :: a5 :: s) w := by simp [exec]
@[simp] theorem exec_dup7 {P : Prog} {c : List I} {a0 a1 a2 a3 a4 a5 a6 : Nat} {s : List Nat} {w : World} :
    exec P (DUP 7 :: c) (a0 :: a1 :: a2 :: a3 :: a4 :: a5 :: a6 :: s) w
      = exec P c (a6 :: a0 :: a1 :: a2 :: a3 :: a4 :: a5 :: a6 :: s) w := by simp [exec]
@[simp] theorem exec_dup8 {P : Prog} {c : List I} {a0 a1 a2 a3 a4 a5 a6 a7 : Nat} {s : List Nat} {w : World} :
    exec P (DUP 8 :: c) (a0 :: a1 :: a2 :: a3 :: a4 :: a5 :: a6 :: a7 :: s) w
      = exec P c (a7 :: a0 :: a1 :: a2 :: a3 :: a4 :: a5 :: a6 :: a7 :: s) w := by simp [exec]
@[simp] theorem exec_dup9 {P : Prog} {c : List I} {a0 a1 a2 a3 a4 a5 a6 a7 a8 : Nat} {s : List Nat} {w : World} :
    exec P (DUP 9 :: c) (a0 :: a1 :: a2 :: a3 :: a4 :: a5 :: a6 :: a7 :: a8 :: s) w
      = exec P c (a8 :: a0 :: a1 :: a2 :: a3 :: a4 :: a5 :: a6 :: a7 :: a8 :: s) w := by simp [exec]
@[simp] theorem exec_dup10 {P : Prog} {c : List I} {a0 a1 a2 a3 a4 a5 a6 a7 a8 a9 : Nat} {s : List Nat} {w : World} :
    exec P (DUP 10 :: c) (a0 :: a1 :: a2 :: a3 :: a4 :: a5 :: a6 :: a7 :: a8 :: a9 :: s) w
      = exec P c (a9 :: a0 :: a1 :: a2 :: a3 :: a4 :: a5 :: a6 :: a7 :: a8 :: a9 :: s) w := by simp [exec]
@[simp] theorem exec_dup11 {P : Prog} {c : List I} {a0 a1 a2 a3 a4 a5 a6 a7 a8 a9 a10 : Nat} {s : List Nat} {w : World} :
    exec P (DUP 11 :: c) (a0 :: a1 :: a2 :: a3 :: a4 :: a5 :: a6 :: a7 :: a8 :: a9 :: a10 :: s) w
      = exec P c (a10 :: a0 :: a1 :: a2 :: a3 :: a4 :: a5 :: a6 :: a7 :: a8 :: a9 :: a10 :: s) w := by simp [exec]
@[simp] theorem exec_dup12 {P : Prog} {c : List I} {a0 a1 a2 a3 a4 a5 a6 a7 a8 a9 a10 a11 : Nat} {s : List Nat} {w : World} :
    exec P (DUP 12 :: c) (a0 :: a1 :: a2 :: a3 :: a4 :: a5 :: a6 :: a7 :: a8 :: a9 :: a10 :: a11 :: s) w
      = exec P c (a11 :: a0 :: a1 :: a2 :: a3 :: a4 :: a5 :: a6 :: a7 :: a8 :: a9 :: a10 :: a11 :: s) w := by simp [exec]
@[simp] theorem exec_dup13 {P : Prog} {c : List I} {a0 a1 a2 a3 a4 a5 a6 a7 a8 a9 a10 a11 a12 : Nat} {s : List Nat} {w : World} :
    exec P (DUP 13 :: c) (a0 :: a1 :: a2 :: a3 :: a4 :: a5 :: a6 :: a7 :: a8 :: a9 :: a10 :: a11 :: a12 :: s) w
      = exec P c (a12 :: a0 :: a1 :: a2 :: a3 :: a4 :: a5 :: a6 :: a7 :: a8 :: a9 :: a10 :: a11 :: a12 :: s) w := by simp [exec]
@[simp] theorem exec_dup14 {P : Prog} {c : List I} {a0 a1 a2 a3 a4 a5 a6 a7 a8 a9 a10 a11 a12 a13 : Nat} {s : List Nat} {w : World} :
    exec P (DUP 14 :: c) (a0 :: a1 :: a2 :: a3 :: a4 :: a5 :: a6 :: a7 :: a8 :: a9 :: a10 :: a11 :: a12 :: a13 :: s) w
      = exec P c (a13 :: a0 :: a1 :: a2 :: a3 :: a4 :: a5 :: a6 :: a7 :: a8 :: a9 :: a10 :: a11 :: a12 :: a13 :: s) w := by simp [exec]
@[simp] theorem exec_dup15 {P : Prog} {c : List I} {a0 a1 a2 a3 a4 a5 a6 a7 a8 a9 a10 a11 a12 a13 a14 : Nat} {s : List Nat} {w : World} :
    exec P (DUP 15 :: c) (a0 :: a1 :: a2 :: a3 :: a4 :: a5 :: a6 :: a7 :: a8 :: a9 :: a10 :: a11 :: a12 :: a13 :: a14 :: s) w
      = exec P c (a14 :: a0 :: a1 :: a2 :: a3 :: a4 :: a5 :: a6 :: a7 :: a8 :: a9 :: a10 :: a11 :: a12 :: a13 :: a14 :: s) w := by simp [exec]
@[simp] theorem exec_dup16 {P : Prog} {c : List I} {a0 a1 a2 a3 a4 a5 a6 a7 a8 a9 a10 a11 a12 a13 a14 a15 : Nat} {s : List Nat} {w : World} :
    exec P (DUP 16 :: c) (a0 :: a1 :: a2 :: a3 :: a4 :: a5 :: a6 :: a7 :: a8 :: a9 :: a10 :: a11 :: a12 :: a13 :: a14 :: a15 :: s) w
      = exec P c (a15 :: a0 :: a1 :: a2 :: a3 :: a4 :: a5 :: a6 :: a7 :: a8 :: a9 :: a10 :: a11 :: a12 :: a13 :: a14 :: a15 :: s) w := by simp [exec]

@[simp] theorem exec_swap1 {P : Prog} {c : List I} {a0 a1 : Nat} {s : List Nat} {w : World} :
    exec P (SWAP 1 :: c) (a0 :: a1 :: s) w
      = exec P c (a1 :: a0 :: s) w := by simp [exec, swapTop]
@[simp] theorem exec_swap2 {P : Prog} {c : List I} {a0 a1 a2 : Nat} {s : List Nat} {w : World} :
    exec P (SWAP 2 :: c) (a0 :: a1 :: a2 :: s) w
      = exec P c (a2 :: a1 :: a0 :: s) w := by simp [exec, swapTop]
@[simp] theorem exec_swap3 {P : Prog} {c : List I} {a0 a1 a2 a3 : Nat} {s : List Nat} {w : World} :
    exec P (SWAP 3 :: c) (a0 :: a1 :: a2 :: a3 :: s) w
      = exec P c (a3 :: a1 :: a2 :: a0 :: s) w := by simp [exec, swapTop]
@[simp] theorem exec_swap4 {P : Prog} {c : List I} {a0 a1 a2 a3 a4 : Nat} {s : List Nat} {w : World} :
    exec P (SWAP 4 :: c) (a0 :: a1 :: a2 :: a3 :: a4 :: s) w
      = exec P c (a4 :: a1 :: a2 :: a3 :: a0 :: s) w := by simp [exec, swapTop]
@[simp] theorem exec_swap5 {P : Prog} {c : List I} {a0 a1 a2 a3 a4 a5 : Nat} {s : List Nat} {w : World} :
    exec P (SWAP 5 :: c) (a0 :: a1 :: a2 :: a3 :: a4 :: a5 :: s) w
      = exec P c (a5 :: a1 :: a2 :: a3 :: a4 :: a0 :: s) w := by simp [exec, swapTop]
@[simp] theorem exec_swap6 {P : Prog} {c : List I} {a0 a1 a2 a3 a4 a5 a6 : Nat} {s : List Nat} {w : World} :
    exec P (SWAP 6 :: c) (a0 :: a1 :: a2 :: a3 :: a4 :: a5 :: a6 :: s) w
      = exec P c (a6 :: a1 :: a2 :: a3 :: a4 :: a5 :: a0 :: s) w := by simp [exec, swapTop]
@[simp] theorem exec_swap7 {P : Prog} {c : List I} {a0 a1 a2 a3 a4 a5 a6 a7 : Nat} {s : List Nat} {w : World} :
    exec P (SWAP 7 :: c) (a0 :: a1 :: a2 :: a3 :: a4 :: a5 :: a6 :: a7 :: s) w
      = exec P c (a7 :: a1 :: a2 :: a3 :: a4 :: a5 :: a6 :: a0 :: s) w := by simp [exec, swapTop]
@[simp] theorem exec_swap8 {P : Prog} {c : List I} {a0 a1 a2 a3 a4 a5 a6 a7 a8 : Nat} {s : List Nat} {w : World} :
    exec P (SWAP 8 :: c) (a0 :: a1 :: a2 :: a3 :: a4 :: a5 :: a6 :: a7 :: a8 :: s) w
      = exec P c (a8 :: a1 :: a2 :: a3 :: a4 :: a5 :: a6 :: a7 :: a0 :: s) w := by simp [exec, swapTop]
@[simp] theorem exec_swap9 {P : Prog} {c : List I} {a0 a1 a2 a3 a4 a5 a6 a7 a8 a9 : Nat} {s : List Nat} {w : World} :
    exec P (SWAP 9 :: c) (a0 :: a1 :: a2 :: a3 :: a4 :: a5 :: a6 :: a7 :: a8 :: a9 :: s) w
      = exec P c (a9 :: a1 :: a2 :: a3 :: a4 :: a5 :: a6 :: a7 :: a8 :: a0 :: s) w := by simp [exec, swapTop]
@[simp] theorem exec_swap10 {P : Prog} {c : List I} {a0 a1 a2 a3 a4 a5 a6 a7 a8 a9 a10 : Nat} {s : List Nat} {w : World} :
    exec P (SWAP 10 :: c) (a0 :: a1 :: a2 :: a3 :: a4 :: a5 :: a6 :: a7 :: a8 :: a9 :: a10 :: s) w
      = exec P c (a10 :: a1 :: a2 :: a3 :: a4 :: a5 :: a6 :: a7 :: a8 :: a9 :: a0 :: s) w := by simp [exec, swapTop]
@[simp] theorem exec_swap11 {P : Prog} {c : List I} {a0 a1 a2 a3 a4 a5 a6 a7 a8 a9 a10 a11 : Nat} {s : List Nat} {w : World} :
    exec P (SWAP 11 :: c) (a0 :: a1 :: a2 :: a3 :: a4 :: a5 :: a6 :: a7 :: a8 :: a9 :: a10 :: a11 :: s) w
      = exec P c (a11 :: a1 :: a2 :: a3 :: a4 :: a5 :: a6 :: a7 :: a8 :: a9 :: a10 :: a0 :: s) w := by simp [exec, swapTop]
@[simp] theorem exec_swap12 {P : Prog} {c : List I} {a0 a1 a2 a3 a4 a5 a6 a7 a8 a9 a10 a11 a12 : Nat} {s : List Nat} {w : World} :
    exec P (SWAP 12 :: c) (a0 :: a1 :: a2 :: a3 :: a4 :: a5 :: a6 :: a7 :: a8 :: a9 :: a10 :: a11 :: a12 :: s) w
      = exec P c (a12 :: a1 :: a2 :: a3 :: a4 :: a5 :: a6 :: a7 :: a8 :: a9 :: a10 :: a11 :: a0 :: s) w := by simp [exec, swapTop]
@[simp] theorem exec_swap13 {P : Prog} {c : List I} {a0 a1 a2 a3 a4 a5 a6 a7 a8 a9 a10 a11 a12 a13 : Nat} {s : List Nat} {w : World} :
    exec P (SWAP 13 :: c) (a0 :: a1 :: a2 :: a3 :: a4 :: a5 :: a6 :: a7 :: a8 :: a9 :: a10 :: a11 :: a12 :: a13 :: s) w
      = exec P c (a13 :: a1 :: a2 :: a3 :: a4 :: a5 :: a6 :: a7 :: a8 :: a9 :: a10 :: a11 :: a12 :: a0 :: s) w := by simp [exec, swapTop]
@[simp] theorem exec_swap14 {P : Prog} {c : List I} {a0 a1 a2 a3 a4 a5 a6 a7 a8 a9 a10 a11 a12 a13 a14 : Nat} {s : List Nat} {w : World} :
    exec P (SWAP 14 :: c) (a0 :: a1 :: a2 :: a3 :: a4 :: a5 :: a6 :: a7 :: a8 :: a9 :: a10 :: a11 :: a12 :: a13 :: a14 :: s) w
      = exec P c (a14 :: a1 :: a2 :: a3 :: a4 :: a5 :: a6 :: a7 :: a8 :: a9 :: a10 :: a11 :: a12 :: a13 :: a0 :: s) w := by simp [exec, swapTop]
@[simp] theorem exec_swap15 {P : Prog} {c : List I} {a0 a1 a2 a3 a4 a5 a6 a7 a8 a9 a10 a11 a12 a13 a14 a15 : Nat} {s : List Nat} {w : World} :
    exec P (SWAP 15 :: c) (a0 :: a1 :: a2 :: a3 :: a4 :: a5 :: a6 :: a7 :: a8 :: a9 :: a10 :: a11 :: a12 :: a13 :: a14 :: a15 :: s) w
      = exec P c (a15 :: a1 :: a2 :: a3 :: a4 :: a5 :: a6 :: a7 :: a8 :: a9 :: a10 :: a11 :: a12 :: a13 :: a14 :: a0 :: s) w := by simp [exec, swapTop]
@[simp] theorem exec_swap16 {P : Prog} {c : List I} {a0 a1 a2 a3 a4 a5 a6 a7 a8 a9 a10 a11 a12 a13 a14 a15 a16 : Nat} {s : List Nat} {w : World} :
    exec P (SWAP 16 :: c) (a0 :: a1 :: a2 :: a3 :: a4 :: a5 :: a6 :: a7 :: a8 :: a9 :: a10 :: a11 :: a12 :: a13 :: a14 :: a15 :: a16 :: s) w
      = exec P c (a16 :: a1 :: a2 :: a3 :: a4 :: a5 :: a6 :: a7 :: a8 :: a9 :: a10 :: a11 :: a12 :: a13 :: a14 :: a15 :: a0 :: s) w := by simp [exec, swapTop]

end rules

attribute [irreducible] exec

@[simp] theorem wlt_eq_zero {a b : Nat} : wlt a b = 0 ↔ b ≤ a := by
  unfold wlt; split <;> omega
@[simp] theorem wgt_eq_zero {a b : Nat} : wgt a b = 0 ↔ a ≤ b := by
  unfold wgt; split <;> omega
@[simp] theorem weq_eq_zero {a b : Nat} : weq a b = 0 ↔ a ≠ b := by
  unfold weq; split <;> simp_all
@[simp] theorem wiszero_eq_zero {a : Nat} : wiszero a = 0 ↔ a ≠ 0 := by
  unfold wiszero; split <;> simp_all

end Verif.Kasm
