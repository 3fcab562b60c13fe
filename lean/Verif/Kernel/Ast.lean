/-!
# Kernel assembly items (`evm_arithmetization/src/cpu/kernel/ast.rs`) and what they do
-/
namespace Verif.Kernel

/-- `U256`. -/
abbrev Word := BitVec 256

/-! ## Model of the syntax -/

/-- The mnemonic of a `StandardOp` (`ast.rs:32`). The code keeps a string; the mnemonics the optimizer
looks at are constructors here, `dup n` and `swap n` stand for `DUPn` and `SWAPn`, all others are `other`. -/
inductive Op where
  | iszero | not | add | sub | mul | div | mod | exp | shl | shr | and | or | xor | lt | gt | eq | byte
  | pop | jump | jumpi
  | dup (n : Nat) | swap (n : Nat)
  | other (mnemonic : String)
  deriving DecidableEq, Repr

/-- `PushTarget` (`ast.rs:73-79`), after macros and constants have been replaced (`assembler.rs:95-99`). -/
inductive Target where
  | literal (n : Word)
  | label (l : String)
  deriving DecidableEq, Repr

/-- `Item` (`ast.rs:11-41`), restricted to the items left when the optimizer runs: macros, conditional blocks,
repetitions and stack manipulations have been replaced (`assembler.rs:95-100`). A prover input function is
represented by its name. -/
inductive Item where
  | push (t : Target)
  | op (o : Op)
  | globalLabel (l : String)
  | localLabel (l : String)
  | proverInput (f : String)
  | bytes (bs : List (BitVec 8))
  | jumptable (ls : List String)
  deriving DecidableEq, Repr

/-! ## Specification: what a program does

A stack entry is a word or the address of a label. Addresses are symbols: assembling decides about their values,
so that arithmetic on them has no result here. Every other instruction (memory, storage, system calls, prover inputs,
...) is an arbitrary function of its name, the state of the machine and the stack. -/

/-- A stack entry. -/
inductive Val where
  | word (w : Word)
  | addr (l : String)
  deriving DecidableEq, Repr

abbrev Stack := List Val

/-- The result of the binary operations of the EVM; `x` is the top of the stack, `y` the entry below it. -/
def evmBinary : Op → Word → Word → Option Word
  | .add, x, y => some (x + y)
  | .sub, x, y => some (x - y)
  | .mul, x, y => some (x * y)
  | .div, x, y => some (if y = 0 then 0 else x / y)
  | .mod, x, y => some (if y = 0 then 0 else x % y)
  | .exp, x, y => some (BitVec.ofNat 256 (x.toNat ^ y.toNat))
  | .shl, x, y => some (y <<< x.toNat)
  | .shr, x, y => some (y >>> x.toNat)
  | .and, x, y => some (x &&& y)
  | .or, x, y => some (x ||| y)
  | .xor, x, y => some (x ^^^ y)
  | .lt, x, y => some (if x.toNat < y.toNat then 1 else 0)
  | .gt, x, y => some (if y.toNat < x.toNat then 1 else 0)
  | .eq, x, y => some (if x = y then 1 else 0)
  -- byte 0 is the most significant one
  | .byte, x, y => some (if x.toNat < 32 then BitVec.ofNat 256 (y.toNat / 256 ^ (31 - x.toNat) % 256) else 0)
  | _, _, _ => none

/-- The result of the unary operations of the EVM. -/
def evmUnary : Op → Word → Option Word
  | .iszero, x => some (if x = 0 then 1 else 0)
  | .not, x => some (~~~ x)
  | _, _ => none

/-- Exchange the top with the entry `n` places below it. -/
def swapTop (n : Nat) : Stack → Option Stack
  | [] => none
  | x :: s => if 1 ≤ n ∧ n ≤ 16 then (s[n - 1]?).map (fun y => y :: s.set (n - 1) x) else none

/-- Operations which only look at the stack. -/
def evmOp (o : Op) (s : Stack) : Option Stack :=
  match o, s with
  | .pop, _ :: s => some s
  | .dup n, s => if 1 ≤ n ∧ n ≤ 16 then (s[n - 1]?).map (· :: s) else none
  | .swap n, s => swapTop n s
  | o, .word x :: .word y :: s =>
    match evmUnary o x with
    | some z => some (.word z :: .word y :: s)
    | none => (evmBinary o x y).map (.word · :: s)
  | o, .word x :: s => (evmUnary o x).map (.word · :: s)
  | _, _ => none

/-- What an instruction does: go on with a new stack and machine state, jump, stop, or fail. -/
inductive Step (W : Type) where
  | next (s : Stack) (w : W)
  | jump (to : Val) (s : Stack) (w : W)
  | stop (s : Stack) (w : W)
  | fault

variable {W : Type}

/-- One item. `ext` says what the remaining instructions and prover inputs do. Data are not executable. -/
def exec (ext : Item → W → Stack → Step W) (i : Item) (s : Stack) (w : W) : Step W :=
  match i with
  | .push (.literal n) => .next (.word n :: s) w
  | .push (.label l) => .next (.addr l :: s) w
  | .globalLabel _ => .next s w
  | .localLabel _ => .next s w
  | .bytes _ => .fault
  | .jumptable _ => .fault
  | .proverInput f => ext (.proverInput f) w s
  | .op (.other m) => ext (.op (.other m)) w s
  | .op .jump =>
    match s with
    | to :: s => .jump to s w
    | _ => .fault
  | .op .jumpi =>
    match s with
    | to :: .word c :: s => if c = 0 then .next s w else .jump to s w
    | _ => .fault
  | .op o =>
    match evmOp o s with
    | some s => .next s w
    | none => .fault

/-- What follows the first declaration `d`. -/
def after (d : Item) : List Item → Option (List Item)
  | [] => none
  | i :: r => if i = d then some r else after d r

/-- Where a jump to the label `l` continues: a local label takes precedence over a global one
(`assembler.rs`, `look_up_label`). -/
def target (code : List Item) (l : String) : Option (List Item) :=
  match after (.localLabel l) code with
  | some r => some r
  | none => after (.globalLabel l) code

/-- How an execution ends: behind the last item, in an instruction that stops, or with a jump to code elsewhere. -/
inductive Outcome (W : Type) where
  | fell (s : Stack) (w : W)
  | stopped (s : Stack) (w : W)
  | left (to : Val) (s : Stack) (w : W)

/-- At most `n` items of the program `code`, beginning with those in `rest`. `none`: more items are needed;
`some none`: failed; `some (some o)`: ended with outcome `o`. -/
def run (ext : Item → W → Stack → Step W) (code : List Item) : Nat → List Item → Stack → W → Option (Option (Outcome W))
  | 0, _, _, _ => none
  | _ + 1, [], s, w => some (some (.fell s w))
  | n + 1, i :: rest, s, w =>
    match exec ext i s w with
    | .fault => some none
    | .stop s w => some (some (.stopped s w))
    | .next s w => run ext code n rest s w
    | .jump (.word v) s w => some (some (.left (.word v) s w))
    | .jump (.addr l) s w =>
      match target code l with
      | some r => run ext code n r s w
      | none => some (some (.left (.addr l) s w))

/-- Where an execution begins: at the first item or at a label. -/
def entry (code : List Item) : Option String → Option (List Item)
  | none => some code
  | some l => target code l

/-- The program ends with outcome `o`. -/
def Ends (ext : Item → W → Stack → Step W) (code : List Item) (from? : Option String) (s : Stack) (w : W) (o : Outcome W) : Prop :=
  ∃ rest, entry code from? = some rest ∧ ∃ n, run ext code n rest s w = some (some o)

/-- The program fails: stack underflow, arithmetic on an address, execution of data, an unknown entry point. -/
def Fails (ext : Item → W → Stack → Step W) (code : List Item) (from? : Option String) (s : Stack) (w : W) : Prop :=
  entry code from? = none ∨ ∃ rest, entry code from? = some rest ∧ ∃ n, run ext code n rest s w = some none

/-- The program runs forever. -/
def Diverges (ext : Item → W → Stack → Step W) (code : List Item) (from? : Option String) (s : Stack) (w : W) : Prop :=
  ∃ rest, entry code from? = some rest ∧ ∀ n, run ext code n rest s w = none

/-- `new` does what `old` does wherever `old` does not fail. -/
def Preserves (old new : List Item) : Prop :=
  ∀ (W : Type) (ext : Item → W → Stack → Step W) (from? : Option String) (s : Stack) (w : W),
    (∀ o, Ends ext old from? s w o → Ends ext new from? s w o) ∧ (Diverges ext old from? s w → Diverges ext new from? s w)

/-- The names of the labels a program declares. -/
def declared : List Item → List String
  | [] => []
  | .globalLabel l :: r => l :: declared r
  | .localLabel l :: r => l :: declared r
  | _ :: r => declared r

end Verif.Kernel
