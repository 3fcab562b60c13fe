import Verif.Kernel.Ast

/-!
# The peephole optimizer (`cpu/kernel/optimizer.rs`, `utils.rs`, `cost_estimator.rs`): model
-/
namespace Verif.Kernel

deriving instance DecidableEq for Except

/-- A rewriting rule on windows of a fixed length. `error`: the code panics. -/
abbrev Rule := List Item → Except Unit (Option (List Item))

/-- `replace_windows` (`utils.rs:10-27`). The loop gets fuel; `none` means that it did not suffice.
`error`: `maybe_replace` panicked. -/
def replaceWindows (W : Nat) (rule : Rule) : Nat → Nat → List Item → Option (Except Unit (List Item))
  | 0, _, _ => none
  | fuel + 1, start, v =>
    if start + W ≤ v.length then
      match rule ((v.drop start).take W) with
      | .error e => some (.error e)
      | .ok (some r) => replaceWindows W rule fuel (start - (W - 1)) (v.take start ++ r ++ v.drop (start + W))
      | .ok none => replaceWindows W rule fuel (start + 1) v
    else some (.ok v)

/-- `u256_to_trimmed_be_bytes(n).len()` (`utils.rs:32-36`): the number of bytes without leading zeros. -/
def byteLen (n : Word) : Nat := if n.toNat = 0 then 0 else Nat.log2 n.toNat / 8 + 1

/-- `cost_estimate_item` (`cost_estimator.rs:15-26`); `none`: panic. -/
def costItem : Item → Option Nat
  | .globalLabel _ => some 0
  | .localLabel _ => some 0
  | .push (.literal n) => some (byteLen n)
  | .push (.label _) => some 3
  | .proverInput _ => some 1
  | .op _ => some 1
  | .bytes _ => none
  | .jumptable _ => none

/-- `cost_estimate` (`cost_estimator.rs:11-13`). -/
def cost : List Item → Option Nat
  | [] => some 0
  | i :: r => (costItem i).bind (fun a => (cost r).map (a + ·))

/-- `is_code_improved` (`cost_estimator.rs:7-9`). -/
def improved (before after : List Item) : Option Bool :=
  (cost after).bind (fun a => (cost before).map (fun b => decide (a < b)))

/-- `replace_windows_if_better` (`optimizer.rs:214-221`). -/
def ifBetter (rule : Rule) : Rule := fun window =>
  match rule window with
  | .error e => .error e
  | .ok none => .ok none
  | .ok (some r) =>
    match improved window r with
    | none => .error ()
    | some true => .ok (some r)
    | some false => .ok none

/-- `u256_from_bool` (`utils.rs:35-41`). -/
def ofBool (b : Bool) : Word := if b then 1 else 0

/-- The first rule of `constant_propagation` (`optimizer.rs:46-56`). -/
def foldUnary : Rule
  | [.push (.literal x), .op .iszero] => .ok (some [.push (.literal (ofBool (x == 0)))])
  | [.push (.literal x), .op .not] => .ok (some [.push (.literal (~~~ x))])
  | _ => .ok none

/-- The table of `constant_propagation` (`optimizer.rs:62-83`), `U256` arithmetic spelt out on naturals.
`y << x` and `y >> x` convert `x` to `usize` and panic if it does not fit; `byte` counts from the least significant byte. -/
def foldTable (o : Op) (x y : Nat) : Except Unit (Option Nat) :=
  match o with
  | .add => .ok (some ((x + y) % 2 ^ 256))
  | .sub => .ok (some ((2 ^ 256 + x - y) % 2 ^ 256))
  | .mul => .ok (some ((x * y) % 2 ^ 256))
  | .div => .ok (some (if y = 0 then 0 else x / y))
  | .mod => .ok (some (if y = 0 then 0 else x % y))
  | .exp => .ok (some (x ^ y % 2 ^ 256))
  | .shl => if x < 2 ^ 64 then .ok (some (if x < 256 then (y * 2 ^ x) % 2 ^ 256 else 0)) else .error ()
  | .shr => if x < 2 ^ 64 then .ok (some (if x < 256 then y / 2 ^ x else 0)) else .error ()
  | .and => .ok (some (x &&& y))
  | .or => .ok (some (x ||| y))
  | .xor => .ok (some (x ^^^ y))
  | .lt => .ok (some (if x < y then 1 else 0))
  | .gt => .ok (some (if x > y then 1 else 0))
  | .eq => .ok (some (if x = y then 1 else 0))
  | .byte => .ok (some (if x < 32 then y / 256 ^ x % 256 else 0))
  | _ => .ok none

/-- The second rule of `constant_propagation` (`optimizer.rs:60-88`). -/
def foldBinary : Rule
  | [.push (.literal y), .push (.literal x), .op o] =>
    match foldTable o x.toNat y.toNat with
    | .error e => .error e
    | .ok none => .ok none
    | .ok (some z) => .ok (some [.push (.literal (BitVec.ofNat 256 z))])
  | _ => .ok none

/-- `identity_operations` (`optimizer.rs:92-108`). -/
def identityRule : Rule
  | [.push (.literal x), .op .add] => .ok (if x = 0 then some [] else none)
  | [.push (.literal x), .op .mul] => .ok (if x = 1 then some [] else none)
  | [.push (.literal x), .op .or] => .ok (if x = 0 then some [] else none)
  | [.push (.literal x), .op .xor] => .ok (if x = 0 then some [] else none)
  | _ => .ok none

/-- `no_op_jumps` (`optimizer.rs:111-122`). -/
def noOpJump : Rule
  | [.push (.label l), .op .jump, decl] =>
    .ok (if decl = .localLabel l ∨ decl = .globalLabel l then some [decl] else none)
  | _ => .ok none

/-- `remove_swapped_pushes` (`optimizer.rs:126-136`). -/
def swappedPushes : Rule
  | [.push x, .push y, .op (.swap 1)] => .ok (some [.push y, .push x])
  | _ => .ok none

/-- The operations listed in `remove_swaps_commutative` (`optimizer.rs:144`). -/
def listedCommutative : Op → Bool
  | .add | .mul | .and | .or | .xor | .eq => true
  | _ => false

/-- `remove_swaps_commutative` (`optimizer.rs:139-150`). -/
def swapCommutative : Rule
  | [.op (.swap 1), .op f] => .ok (if listedCommutative f then some [.op f] else none)
  | _ => .ok none

/-- `is_push_or_dup` (`optimizer.rs:169-179`). -/
def isPushOrDup : Item → Bool
  | .push _ => true
  | .op (.dup _) => true
  | _ => false

/-- `remove_ignored_values` (`optimizer.rs:155-166`). -/
def ignoredValue : Rule
  | [a, .op .pop] => .ok (if isPushOrDup a then some [] else none)
  | _ => .ok none

/-- `de_morgan` (`optimizer.rs:186-209`). -/
def deMorgan : Rule
  | [a, .op .not, b, .op .not, .op .and] =>
    .ok (if isPushOrDup a ∧ isPushOrDup b then some [a, b, .op .or, .op .not] else none)
  | [a, .op .not, b, .op .not, .op .or] =>
    .ok (if isPushOrDup a ∧ isPushOrDup b then some [a, b, .op .and, .op .not] else none)
  | _ => .ok none

/-- One application of `replace_windows`: the length of the windows and the rule. -/
structure Pass where
  width : Nat
  rule : Rule

/-- `optimize_asm_once` (`optimizer.rs:33-41`), `constant_propagation` being two passes. -/
def passes : List Pass :=
  [⟨2, ifBetter foldUnary⟩, ⟨3, ifBetter foldBinary⟩, ⟨2, identityRule⟩, ⟨3, noOpJump⟩, ⟨3, swappedPushes⟩,
   ⟨2, swapCommutative⟩, ⟨2, ignoredValue⟩, ⟨5, deMorgan⟩]

/-- Passes one after the other. -/
def runPasses (fuel : Nat) : List Pass → List Item → Option (Except Unit (List Item))
  | [], code => some (.ok code)
  | p :: ps, code =>
    match replaceWindows p.width p.rule fuel 0 code with
    | none => none
    | some (.error e) => some (.error e)
    | some (.ok code) => runPasses fuel ps code

/-- The loop of `optimize_asm` (`optimizer.rs:13-22`). -/
def optimizeLoop (fuel : Nat) : Nat → List Item → Option (Except Unit (List Item))
  | 0, _ => none
  | n + 1, code =>
    match runPasses fuel passes code with
    | none => none
    | some (.error e) => some (.error e)
    | some (.ok code') => if code' = code then some (.ok code') else optimizeLoop fuel n code'

/-- `optimize_asm` (`optimizer.rs:13-30`) with `fuel` iterations for every loop. -/
def optimize (fuel : Nat) (code : List Item) : Option (Except Unit (List Item)) := optimizeLoop fuel fuel code

end Verif.Kernel
