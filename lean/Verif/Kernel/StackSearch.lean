import Verif.Kernel.Ast
import Verif.Kernel.Perm
import Verif.Kernel.Optimizer

/-!
# Expansion of `%stack` (`cpu/kernel/stack/stack_manipulation.rs`): model

Stacks of symbols have the tip at the end, as in the code.
-/
namespace Verif.Kernel

/-- `StackItem` (`stack_manipulation.rs:191-194`). A named item is the name of the placeholder and the index in its block; the code
joins them to `@name.index`, from which both can be recovered. -/
inductive Sym where
  | named (name : String) (i : Nat)
  | push (t : Target)
  deriving DecidableEq, Repr

/-- `StackOp` (`stack_manipulation.rs:197-202`). -/
inductive StackOp where
  | push (t : Target)
  | pop
  | dup (n : Nat)
  | swap (n : Nat)
  deriving DecidableEq, Repr

/-- `StackOp::apply_to` (`stack_manipulation.rs:315-335`). -/
def StackOp.applyTo (op : StackOp) (st : List Sym) : Option (List Sym) :=
  match op with
  | .push t => some (st ++ [.push t])
  | .pop => if st = [] then none else some st.dropLast
  -- `stack[idx]` panics for `n = 0`; `none` stands for that, too
  | .dup n => if n ≤ st.length then (st[st.length - n]?).map (fun x => st ++ [x]) else none
  | .swap n =>
    if n + 1 ≤ st.length then
      match st[st.length - 1]?, st[st.length - (n + 1)]? with
      | some x, some y => some ((st.set (st.length - 1) y).set (st.length - (n + 1)) x)
      | _, _ => none
    else none

/-- `StackOp::into_item` (`stack_manipulation.rs:337-344`). -/
def StackOp.intoItem : StackOp → Item
  | .push t => .push t
  | .pop => .op .pop
  | .dup n => .op (.dup n)
  | .swap n => .op (.swap n)

/-- `StackOp::cost` (`stack_manipulation.rs:285-311`), with `NUM_CPU_COLUMNS = 85` (`cpu/columns/mod.rs:56-97`) and
`memory::columns::NUM_COLUMNS = 30` (`memory/columns.rs:13-94`). -/
def StackOp.cost : StackOp → Nat
  | .push (.literal n) => 85 + (byteLen n + 1) * 30
  | .push (.label _) => 85 + (3 + 1) * 30
  | .pop => 85 + 1 * 30
  | .dup _ => 85 + 2 * 30
  | .swap _ => 85 + 3 * 30

/-- `should_try_swap` (`stack_manipulation.rs:268-282`). -/
def shouldTrySwap (src dst : List Sym) (i : Nat) : Bool :=
  if src = [] then false
  else
    let from' := src.length - 1
    let to := from' - i
    (decide (to < dst.length) && decide (src[from']? = dst[to]?)) || (decide (from' < dst.length) && decide (src[to]? = dst[from']?))

/-- `next_ops` (`stack_manipulation.rs:206-265`); `order` is the order of iteration over a `HashMap` in `combine_cycles`. `none`: panic. -/
def nextOps (order : List (List Nat) → List (List Nat)) (src dst : List Sym) (targets : List Target) : Option (List StackOp) :=
  if (match src.getLast? with | some top => decide (top ∉ dst) | none => false) then some [.pop]
  else if Perm.isPermutation src dst then
    match Perm.planFor order src.reverse dst.reverse with
    | none => none
    | some trans =>
      match trans.getLast? with
      | none => none
      -- `Swap(i as u8)`
      | some i => some [.swap (i % 256)]
  else
    -- `src.len() as u8`
    let len := src.length % 256
    some ([.pop] ++
      ((targets.filter (fun t => decide (src.count (.push t) < dst.count (.push t)))).map StackOp.push) ++
      (((List.range' 1 len).filter (fun i =>
        match src[src.length - i]? with
        | some item => decide (src.count item < dst.count item)
        | none => false)).map StackOp.dup) ++
      (((List.range' 1 (len - 1)).filter (shouldTrySwap src dst)).map StackOp.swap))

/-! ## The priority queue: `BinaryHeap` of the standard library -/

/-- `Node` (`stack_manipulation.rs:169-172`). -/
structure Node where
  stack : List Sym
  cost : Nat

/-- `a <= b` for nodes (`stack_manipulation.rs:174-186`): costs compared the other way round. -/
def Node.le (a b : Node) : Bool := decide (b.cost ≤ a.cost)

def exchange (d : List Node) (i j : Nat) : List Node :=
  match d[i]?, d[j]? with
  | some x, some y => (d.set i y).set j x
  | _, _ => d

/-- `BinaryHeap::sift_up` with start 0. -/
def siftUp : Nat → List Node → Nat → List Node
  | 0, d, _ => d
  | fuel + 1, d, pos =>
    if pos = 0 then d
    else
      match d[pos]?, d[(pos - 1) / 2]? with
      | some x, some p => if x.le p then d else siftUp fuel (exchange d pos ((pos - 1) / 2)) ((pos - 1) / 2)
      | _, _ => d

/-- `BinaryHeap::push`. -/
def heapPush (d : List Node) (x : Node) : List Node := siftUp (d.length + 1) (d ++ [x]) d.length

/-- The first loop of `BinaryHeap::sift_down_to_bottom`: move the larger child up until the bottom is reached. -/
def siftDown : Nat → List Node → Nat → List Node × Nat
  | 0, d, pos => (d, pos)
  | fuel + 1, d, pos =>
    let child := 2 * pos + 1
    if child ≤ d.length - 2 then
      match d[child]?, d[child + 1]? with
      | some x, some y =>
        let c := if x.le y then child + 1 else child
        siftDown fuel (exchange d pos c) c
      | _, _ => (d, pos)
    else if child = d.length - 1 ∧ child < d.length then (exchange d pos child, child)
    else (d, pos)

/-- `BinaryHeap::pop`. -/
def heapPop (d : List Node) : Option (Node × List Node) :=
  match d.getLast? with
  | none => none
  | some last =>
    match d.dropLast with
    | [] => some (last, [])
    | top :: rest =>
      let r := siftDown (rest.length + 2) (last :: rest) 0
      some (top, siftUp (rest.length + 2) r.1 r.2)

/-! ## The search -/

/-- `node_info` (`stack_manipulation.rs:104-106`). -/
abbrev Info := List (List Sym × Nat × Option (List Sym × StackOp))

/-- Look up in `node_info`. -/
def Info.get (info : Info) (st : List Sym) : Option (Nat × Option (List Sym × StackOp)) :=
  match info.find? (fun e => decide (e.1 = st)) with
  | some e => some e.2
  | none => none

/-- Insert into `node_info`, replacing an older entry. -/
def Info.put (info : Info) (st : List Sym) (v : Nat × Option (List Sym × StackOp)) : Info :=
  (st, v) :: info.filter (fun e => decide (e.1 ≠ st))

/-- A path that is not worse is already known (`stack_manipulation.rs:140-145`). -/
def Info.better (info : Info) (st : List Sym) (c : Nat) : Bool :=
  match info.get st with
  | some e => decide (e.1 ≤ c)
  | none => false

/-- The loop over the operations (`stack_manipulation.rs:132-161`). -/
def expandOps (node : Node) : List StackOp → List Node → Info → List Node × Info
  | [], queue, info => (queue, info)
  | op :: ops, queue, info =>
    match op.applyTo node.stack with
    | none => expandOps node ops queue info
    | some nb =>
      let c := node.cost + op.cost
      if info.better nb c then expandOps node ops queue info
      else expandOps node ops (heapPush queue ⟨nb, c⟩) (info.put nb (c, some (node.stack, op)))

/-- The loop that follows the parents (`stack_manipulation.rs:112-121`). `none`: out of fuel; `error`: panic. -/
def rewind (info : Info) (src : List Sym) : Nat → List Sym → List StackOp → Option (Except Unit (List StackOp))
  | 0, _, _ => none
  | fuel + 1, st, path =>
    match info.get st with
    | none => some (.error ())
    | some (_, some (parent, op)) => rewind info src fuel parent (op :: path)
    | some (_, none) => if st = src then some (.ok path) else some (.error ())

/-- The main loop of `shortest_path` (`stack_manipulation.rs:108-164`). `order k` is the order of iteration in the `k`-th last round. -/
def searchLoop (order : Nat → List (List Nat) → List (List Nat)) (src dst : List Sym) (targets : List Target) :
    Nat → List Node → Info → Option (Except Unit (List StackOp))
  | 0, _, _ => none
  | fuel + 1, queue, info =>
    match heapPop queue with
    | none => some (.error ())
    | some (node, queue) =>
      if node.stack = dst then rewind info src (info.length + 1) node.stack []
      else
        match info.get node.stack with
        | none => some (.error ())
        | some (best, _) =>
          if best < node.cost then searchLoop order src dst targets fuel queue info
          else
            match nextOps (order fuel) node.stack dst targets with
            | none => some (.error ())
            | some ops =>
              let r := expandOps node ops queue info
              searchLoop order src dst targets fuel r.1 r.2

/-- `shortest_path` (`stack_manipulation.rs:92-165`). -/
def shortestPath (order : Nat → List (List Nat) → List (List Nat)) (fuel : Nat) (src dst : List Sym) (targets : List Target) :
    Option (Except Unit (List StackOp)) :=
  searchLoop order src dst targets fuel [⟨src, 0⟩] [(src, 0, none)]

/-! ## The pattern -/

/-- `StackPlaceholder` (`ast.rs:45`). -/
structure Placeholder where
  name : String
  size : Nat

/-- `StackReplacement` (`ast.rs:49-57`) after macros and constants have been replaced. -/
inductive Replacement where
  | literal (n : Word)
  | identifier (name : String)
  | label (name : String)

/-- The map `stack_blocks` (`stack_manipulation.rs:29-35`): a later placeholder replaces an earlier one of the same name. -/
def blockSize (names : List Placeholder) (name : String) : Option Nat :=
  (names.reverse.find? (fun p => decide (p.name = name))).map Placeholder.size

/-- The named items of a block (`stack_manipulation.rs:36-41`). -/
def block (name : String) (n : Nat) : List Sym := (List.range n).map (Sym.named name)

/-- `src` before it is reversed (`stack_manipulation.rs:31-43`). -/
def symsOf (names : List Placeholder) : List Sym := names.flatMap (fun p => block p.name p.size)

/-- `dst` before it is reversed (`stack_manipulation.rs:45-70`). -/
def wanted (names : List Placeholder) (rs : List Replacement) : List Sym :=
  rs.flatMap (fun r =>
    match r with
    | .literal n => [.push (.literal n)]
    | .identifier name =>
      match blockSize names name with
      | some n => block name n
      | none => [.push (.label name)]
    | .label name => [.push (.label name)])

/-- `unique_push_targets` (`stack_manipulation.rs:77-84`). -/
def pushTargets (dst : List Sym) : List Target :=
  (dst.filterMap (fun x => match x with | .push t => some t | _ => none)).eraseDups

/-- `expand` (`stack_manipulation.rs:28-88`). -/
def expandStack (order : Nat → List (List Nat) → List (List Nat)) (fuel : Nat) (names : List Placeholder) (rs : List Replacement) :
    Option (Except Unit (List Item)) :=
  let src := (symsOf names).reverse
  let dst := (wanted names rs).reverse
  match shortestPath order fuel src dst (pushTargets dst) with
  | none => none
  | some (.error e) => some (.error e)
  | some (.ok path) => some (.ok (path.map StackOp.intoItem))

end Verif.Kernel
