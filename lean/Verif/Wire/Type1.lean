import Verif.Wire.Parse
import Verif.Mpt.PropsHash
import Verif.World.Linked
/-!
# The frontend for Merkle-Patricia trie witnesses (`trace_decoder/src/type1.rs`) (C27)
-/
namespace Verif.Wire.Type1
open Mpt (Bytes Key Nib H256 Node Entry)
open World (U256)

/-- Why decoding stops (`anyhow` errors). -/
inductive Err where
  | noNode
  | badAccount
  | badMask
  | smtLeaf
  | badStack
  | multiple
  | badKey
  | badDepth
  | topValue
  | storageNode
  | duplicate
  | trie (f : Mpt.Fault)
deriving DecidableEq

/-! ## Model -/

/-- `Option<Either<Hash, Code>>`. `trace_decoder/src/type1.rs:182`. -/
inductive CodeRef where
  | none
  | hash (h : H256)
  | code (c : Bytes)
deriving DecidableEq

/-- `Node`, `Leaf`, `Extension`, `Branch`, `Account`. `trace_decoder/src/type1.rs:178-183, 191-194, 197-200, 203-205, 209-220`. `absent` is the `None` of
the children of a branch and of the storage of an account. `NonEmpty` is dropped. -/
inductive WNode where
  | hash (h : H256)
  | value (key : Key) (v : Bytes)
  | acct (key : Key) (nonce : Nat) (balance : U256) (storage : WNode) (code : CodeRef)
  | ext (key : Key) (child : WNode)
  | branch (children : Nib → WNode)
  | code (c : Bytes)
  | empty
  | absent

/-- The loop of `Instruction::Branch` over the bits of the mask, from bit `n - 1` down to bit 0.
`trace_decoder/src/type1.rs:327-337`. The stack is a list, top first. -/
def branchLoop (mask : Nat) : Nat → (Nib → WNode) → List WNode → Except Err ((Nib → WNode) × List WNode)
  | 0, c, st => .ok (c, st)
  | n + 1, c, st =>
    if mask.testBit n then
      if h : n < 16 then
        match st with
        | [] => .error .noNode
        | x :: st => branchLoop mask n (fun i => if i = ⟨n, h⟩ then x else c i) st
      else .error .badMask
    else branchLoop mask n c st

/-- The two kinds of node that can be the code of an account. -/
def codeRef : WNode → Except Err CodeRef
  | .hash h => .ok (.hash h)
  | .code c => .ok (.code c)
  | _ => .error .badAccount

/-- `Instruction::AccountLeaf`. `trace_decoder/src/type1.rs:255-326`. -/
def accountLeaf (key : Key) (nonce : Nat) (balance : U256) (hasCode hasStorage : Bool) (st : List WNode) :
    Except Err (List WNode) :=
  match hasCode, hasStorage with
  | true, true =>
    match st with
    | right :: left :: st => do
      let code ← codeRef left
      return .acct key nonce balance right code :: st
    | _ => .error .badAccount
  | false, true =>
    match st with
    | storage :: st => .ok (.acct key nonce balance storage .none :: st)
    | _ => .error .noNode
  | true, false =>
    match st with
    | x :: st => do
      let code ← codeRef x
      return .acct key nonce balance .absent code :: st
    | _ => .error .badAccount
  | false, false => .ok (.acct key nonce balance .absent .none :: st)

/-- `finish_stack`. `trace_decoder/src/type1.rs:352-366`. -/
def finishStack : List WNode → Except Err WNode
  | [x] =>
    match x with
    | .value _ _ | .acct _ _ _ _ _ | .ext _ _ | .branch _ | .empty => .ok x
    | _ => .error .badStack
  | _ => .error .badStack

/-- One instruction. `trace_decoder/src/type1.rs:243-342`. The state is the list of finished witnesses and the
stack. -/
def step (s : List WNode × List WNode) : Instr → Except Err (List WNode × List WNode)
  | .emptyRoot => .ok (s.1, .empty :: s.2)
  | .hash h => .ok (s.1, .hash h :: s.2)
  | .code c => .ok (s.1, .code c :: s.2)
  | .leaf k v => .ok (s.1, .value k v :: s.2)
  | .ext k =>
    match s.2 with
    | x :: st => .ok (s.1, .ext k x :: st)
    | [] => .error .noNode
  | .acctLeaf k nonce balance hasCode hasStorage => do
    let st ← accountLeaf k (nonce.getD 0) (balance.getD 0) hasCode hasStorage s.2
    return (s.1, st)
  | .branch mask => do
    let (c, st) ← branchLoop mask 64 (fun _ => .absent) s.2
    return (s.1, .branch c :: st)
  | .newTrie => do
    let w ← finishStack s.2
    return (s.1 ++ [w], [])
  | .smtLeaf _ _ _ => .error .smtLeaf

/-- `execute`. `trace_decoder/src/type1.rs:236-349`. -/
def execute (is : List Instr) : Except Err (List WNode) := do
  let s ← is.foldlM step ([], [])
  let w ← finishStack s.2
  return s.1 ++ [w]

/-- `Frontend`. `trace_decoder/src/type1.rs:19-24`. The set of codes is a list. -/
structure Frontend where
  state : Node := .empty
  code : List Bytes := []
  storage : H256 → Option Node := fun _ => none

/-- `insert` and `insert_hash` of the typed tries, after `MptKey::new`. `evm_arithmetization/src/tries.rs:32-34,
310-312, 372-381`. -/
def insertAt (t : Node) (k : Key) (e : Entry) : Except Err Node :=
  if k.length ≤ 64 then
    match Mpt.insert t k e with
    | .ok t => .ok t
    | .error f => .error (.trie f)
  else .error .badKey

/-- `visit` of `node2storagetrie`. `trace_decoder/src/type1.rs:124-160`. -/
def visitStorage : WNode → Key → Node → Except Err Node
  | .hash h, path, t => insertAt t path (.hash h)
  | .value k v, path, t => insertAt t (path ++ k) (.val (Rlp.str v))
  | .acct _ _ _ _ _, _, _ => .error .storageNode
  | .ext k c, path, t => visitStorage c (path ++ k) t
  | .branch c, path, t => (List.finRange 16).foldlM (fun t i => visitStorage (c i) (path ++ [i]) t) t
  | .code _, _, _ => .error .storageNode
  | .empty, _, t => .ok t
  | .absent, _, t => .ok t

/-- `MptKey::new` and `into_hash`. `evm_arithmetization/src/tries.rs:32-34, 71-76`. -/
def hashOf (k : Key) : Except Err H256 :=
  if k.length ≤ 64 then
    match (World.intoHash k).bind World.decodeH256 with
    | some h => .ok h
    | none => .error .badDepth
  else .error .badKey

section
variable (keccak : Bytes → H256)

/-- The code hash of an account. `trace_decoder/src/type1.rs:85-95`. -/
def CodeRef.codeHash : CodeRef → H256
  | .none => keccak []
  | .hash h => h
  | .code c => keccak c

def CodeRef.codes : CodeRef → List Bytes
  | .code c => [c]
  | _ => []

/-- The account arm of `visit`. `trace_decoder/src/type1.rs:60-100`. -/
def visitAcct (F : Frontend) (path : Key) (nonce : Nat) (balance : U256) (storage : Except Err Node) (code : CodeRef) :
    Except Err Frontend := do
  let h ← hashOf path
  let t ← storage
  match F.storage h with
  | some _ => .error .duplicate
  | none =>
    let a : World.Acct := ⟨BitVec.ofNat 256 nonce, balance, Mpt.rootHash keccak t, code.codeHash keccak⟩
    match World.stateInsert F.state h a with
    | .ok st => .ok { state := st, code := F.code ++ code.codes, storage := World.setStorage F.storage h (some t) }
    | .error (.trie f) => .error (.trie f)
    | .error _ => .error .badDepth

/-- `visit`. `trace_decoder/src/type1.rs:49-121`. -/
def visit : WNode → Key → Frontend → Except Err Frontend
  | .hash h, path, F => do
    let st ← insertAt F.state path (.hash h)
    return { F with state := st }
  | .value k _, path, _ => do
    let _ ← hashOf (path ++ k)
    .error .topValue
  | .acct k nonce balance storage code, path, F =>
    visitAcct keccak F (path ++ k) nonce balance (visitStorage storage [] .empty) code
  | .ext k c, path, F => visit c (path ++ k) F
  | .branch c, path, F => (List.finRange 16).foldlM (fun F i => visit (c i) (path ++ [i]) F) F
  | .code c, _, F => .ok { F with code := F.code ++ [c] }
  | .empty, _, F => .ok F
  | .absent, _, F => .ok F

/-- `frontend`. `trace_decoder/src/type1.rs:26-47`. -/
def frontend (is : List Instr) : Except Err Frontend := do
  let ws ← execute is
  match ws with
  | [w] => visit keccak w [] {}
  | _ => .error .multiple

end

/-! ## Specification -/

def CodeRef.emit : CodeRef → List Instr
  | .none => []
  | .hash h => [.hash h]
  | .code c => [.code c]

def CodeRef.present : CodeRef → Bool
  | .none => false
  | _ => true

def WNode.present : WNode → Bool
  | .absent => false
  | _ => true

/-- The mask of the children present: bit `i` is set if child `i` is (`maskOf_testBit`). -/
def maskOf (c : Nib → WNode) : Nat := (List.finRange 16).foldr (fun i m => (c i).present.toNat + 2 * m) 0

/-- The instructions of a node: its parts in order, then the node (postorder). -/
def emit : WNode → List Instr
  | .hash h => [.hash h]
  | .value k v => [.leaf k v]
  | .acct k nonce balance storage code =>
    code.emit ++ emit storage ++ [.acctLeaf k (some nonce) (some balance) code.present storage.present]
  | .ext k c => emit c ++ [.ext k]
  | .branch c => (List.finRange 16).flatMap (fun i => emit (c i)) ++ [.branch (maskOf c)]
  | .code c => [.code c]
  | .empty => [.emptyRoot]
  | .absent => []

/-- The optional fields of an account leaf made explicit. -/
def norm : Instr → Instr
  | .acctLeaf k nonce balance c s => .acctLeaf k (some (nonce.getD 0)) (some (balance.getD 0)) c s
  | i => i

/-- Nodes without an absent part where one is needed. -/
def Proper : WNode → Prop
  | .absent => False
  | .acct _ _ _ storage _ => storage = .absent ∨ Proper storage
  | .ext _ c => Proper c
  | .branch c => ∀ i, c i = .absent ∨ Proper (c i)
  | _ => True

/-- The nodes a witness can end with. -/
def Top : WNode → Prop
  | .hash _ | .code _ | .absent => False
  | _ => True

/-! ## C27: execution -/

theorem finishStack_ok {st : List WNode} {w : WNode} : finishStack st = .ok w ↔ st = [w] ∧ Top w := by
  match st with
  | [] => simp [finishStack]
  | x :: y :: l => simp [finishStack]
  | [x] =>
    cases x <;> simp only [finishStack, List.cons.injEq, and_true]
    all_goals constructor
    all_goals first
      | (intro h; cases h; exact ⟨rfl, trivial⟩)
      | (rintro ⟨rfl, h⟩; rfl)
      | (intro h; cases h; done)
      | (rintro ⟨rfl, h⟩; exact h.elim)

theorem foldr_testBit {α} (f : α → Bool) (l : List α) (n : Nat) :
    (l.foldr (fun i m => (f i).toNat + 2 * m) 0).testBit n = ((l.map f)[n]?).getD false := by
  induction l generalizing n with
  | nil => simp
  | cons a l ih =>
    simp only [List.foldr_cons, List.map_cons]
    cases n with
    | zero =>
      rw [Nat.testBit_zero]
      cases f a <;> simp <;> omega
    | succ n =>
      rw [Nat.testBit_succ, List.getElem?_cons_succ, ← ih]
      congr 1
      cases f a <;> simp <;> omega

theorem maskOf_testBit (c : Nib → WNode) (n : Nat) :
    (maskOf c).testBit n = if h : n < 16 then (c ⟨n, h⟩).present else false := by
  unfold maskOf
  rw [foldr_testBit (fun i => (c i).present)]
  by_cases h : n < 16
  · rw [dif_pos h, List.getElem?_map, List.getElem?_eq_getElem (by simpa using h)]
    simp
  · rw [dif_neg h, List.getElem?_eq_none (by simp; omega)]
    rfl

/-- What a stack stands for. -/
def emitAll (st : List WNode) : List Instr := st.reverse.flatMap emit

theorem emitAll_cons (x : WNode) (st : List WNode) : emitAll (x :: st) = emitAll st ++ emit x := by
  simp [emitAll]

theorem take_finRange_succ {n : Nat} (h : n < 16) :
    (List.finRange 16).take (n + 1) = (List.finRange 16).take n ++ [⟨n, h⟩] := by
  rw [List.take_succ, List.getElem?_eq_getElem (by simpa using h)]
  simp

theorem present_of_proper {x : WNode} (h : Proper x) : x.present = true := by
  cases x <;> first | rfl | exact h.elim

theorem mem_take_finRange {n : Nat} {i : Nib} : i ∈ (List.finRange 16).take n ↔ i.val < n := by
  rw [List.mem_iff_getElem]
  constructor
  · rintro ⟨j, hj, rfl⟩
    simp at hj ⊢
    omega
  · intro h
    exact ⟨i.val, by simp; omega, by simp⟩

theorem branchLoop_ok {mask n : Nat} {c c' : Nib → WNode} {st st' : List WNode} (hp : ∀ x, x ∈ st → Proper x)
    (h : branchLoop mask n c st = .ok (c', st')) :
    (∀ i : Nib, n ≤ i.val → c' i = c i) ∧ (∀ i : Nib, i.val < n → mask.testBit i.val = false → c' i = c i) ∧
    (∀ i : Nib, i.val < n → mask.testBit i.val = true → Proper (c' i)) ∧ (∀ j, j < n → 16 ≤ j → mask.testBit j = false) ∧
    (∀ x, x ∈ st' → Proper x) ∧
    ((∀ i : Nib, i.val < n → c i = .absent) → emitAll st = emitAll st' ++ ((List.finRange 16).take n).flatMap (fun i => emit (c' i))) := by
  induction n generalizing c st with
  | zero =>
    cases h
    refine ⟨fun _ _ => rfl, fun _ h => absurd h (by omega), fun _ h => absurd h (by omega), fun _ h => absurd h (by omega), hp, fun _ => ?_⟩
    simp
  | succ n ih =>
    simp only [branchLoop] at h
    split at h
    · rename_i hb
      split at h
      · rename_i hn
        split at h
        · cases h
        · rename_i x st1
          obtain ⟨h1, h2, h3, h4, h5, h6⟩ := ih (fun y hy => hp y (List.mem_cons_of_mem _ hy)) h
          have hx : c' ⟨n, hn⟩ = x := by rw [h1 ⟨n, hn⟩ (Nat.le_refl _), if_pos rfl]
          refine ⟨fun i hi => ?_, fun i hi hb' => ?_, fun i hi hb' => ?_, fun j hj hj' => ?_, h5, fun hc => ?_⟩
          · rw [h1 i (by omega), if_neg]
            rintro rfl
            exact Nat.lt_irrefl _ hi
          · by_cases hin : i.val = n
            · rw [hin, hb] at hb'; cases hb'
            · rw [h2 i (by omega) hb', if_neg]
              rintro rfl; exact hin rfl
          · by_cases hin : i.val = n
            · have : i = ⟨n, hn⟩ := Fin.ext hin
              subst this
              rw [hx]; exact hp x List.mem_cons_self
            · exact h3 i (by omega) hb'
          · exact h4 j (by omega) hj'
          · have hsub := h6 (fun i hi => by
              rw [if_neg]
              · exact hc i (by omega)
              · rintro rfl; simp at hi)
            rw [emitAll_cons, hsub, take_finRange_succ hn, List.flatMap_append, List.append_assoc]
            simp [hx]
      · cases h
    · rename_i hb
      obtain ⟨h1, h2, h3, h4, h5, h6⟩ := ih hp h
      refine ⟨fun i hi => h1 i (by omega), fun i hi hb' => ?_, fun i hi hb' => ?_, fun j hj hj' => ?_, h5, fun hc => ?_⟩
      · by_cases hin : i.val = n
        · exact h1 i (by omega)
        · exact h2 i (by omega) hb'
      · by_cases hin : i.val = n
        · rw [hin] at hb'; exact absurd hb' hb
        · exact h3 i (by omega) hb'
      · by_cases hin : j = n
        · subst hin; exact Bool.eq_false_iff.2 hb
        · exact h4 j (by omega) hj'
      · rw [h6 (fun i hi => hc i (by omega))]
        by_cases hn : n < 16
        · rw [take_finRange_succ hn, List.flatMap_append, List.flatMap_singleton, h1 ⟨n, hn⟩ (Nat.le_refl _),
            hc ⟨n, hn⟩ (Nat.lt_succ_self n)]
          simp [emit]
        · rw [List.take_of_length_le (by simp; omega), List.take_of_length_le (by simp; omega)]

theorem codeRef_ok {x : WNode} {c : CodeRef} (h : codeRef x = .ok c) : emit x = c.emit ∧ c.present = true := by
  cases x <;> simp only [codeRef] at h <;> cases h <;> exact ⟨rfl, rfl⟩

theorem accountLeaf_ok {key : Key} {nonce : Nat} {balance : U256} {hc hs : Bool} {st st' : List WNode}
    (hp : ∀ x, x ∈ st → Proper x) (h : accountLeaf key nonce balance hc hs st = .ok st') :
    (∀ x, x ∈ st' → Proper x) ∧ emitAll st' = emitAll st ++ [.acctLeaf key (some nonce) (some balance) hc hs] := by
  unfold accountLeaf at h
  split at h
  · split at h
    · rename_i right left st
      obtain ⟨c, h1, h2⟩ := World.bind_ok.1 h
      cases h2
      obtain ⟨e1, e2⟩ := codeRef_ok h1
      have hr := hp right (by simp)
      refine ⟨?_, ?_⟩
      · intro x hx
        rcases List.mem_cons.1 hx with rfl | hx
        · exact .inr hr
        · exact hp x (by simp [hx])
      · simp only [emitAll_cons, emit, e1, e2, present_of_proper hr, List.append_assoc]
    · cases h
  · split at h
    · rename_i storage st
      cases h
      have hr := hp storage (by simp)
      refine ⟨?_, ?_⟩
      · intro x hx
        rcases List.mem_cons.1 hx with rfl | hx
        · exact .inr hr
        · exact hp x (by simp [hx])
      · simp only [emitAll_cons, emit, CodeRef.emit, CodeRef.present, present_of_proper hr, List.append_assoc, List.nil_append]
    · cases h
  · split at h
    · rename_i x st
      obtain ⟨c, h1, h2⟩ := World.bind_ok.1 h
      cases h2
      obtain ⟨e1, e2⟩ := codeRef_ok h1
      refine ⟨?_, ?_⟩
      · intro x hx
        rcases List.mem_cons.1 hx with rfl | hx
        · exact .inl rfl
        · exact hp x (by simp [hx])
      · simp only [emitAll_cons, emit, e1, e2, WNode.present, List.append_assoc, List.nil_append]
    · cases h
  · cases h
    refine ⟨?_, ?_⟩
    · intro x hx
      rcases List.mem_cons.1 hx with rfl | hx
      · exact .inl rfl
      · exact hp x hx
    · simp only [emitAll_cons, emit, CodeRef.emit, CodeRef.present, WNode.present, List.append_assoc, List.nil_append]

/-- What a state of the execution stands for: the instructions executed so far. -/
def done (s : List WNode × List WNode) : List Instr := s.1.flatMap (fun w => emit w ++ [.newTrie]) ++ emitAll s.2

structure StateOk (s : List WNode × List WNode) : Prop where
  done : ∀ w, w ∈ s.1 → Proper w ∧ Top w
  stack : ∀ x, x ∈ s.2 → Proper x

theorem step_ok {s s' : List WNode × List WNode} {i : Instr} (hs : StateOk s) (hi : ∀ m, i = .branch m → m < 2 ^ 64) (h : step s i = .ok s') :
    StateOk s' ∧ done s' = done s ++ [norm i] := by
  obtain ⟨ws, st⟩ := s
  have push : ∀ x, Proper x → emit x = [norm i] → StateOk (ws, x :: st) ∧ done (ws, x :: st) = done (ws, st) ++ [norm i] := by
    intro x hx he
    refine ⟨⟨hs.done, fun y hy => ?_⟩, ?_⟩
    · rcases List.mem_cons.1 hy with rfl | hy
      · exact hx
      · exact hs.stack y hy
    · simp only [done, emitAll_cons, he, List.append_assoc]
  cases i with
  | emptyRoot => cases h; exact push _ trivial rfl
  | hash x => cases h; exact push _ trivial rfl
  | code x => cases h; exact push _ trivial rfl
  | leaf k v => cases h; exact push _ trivial rfl
  | ext k =>
    simp only [step] at h
    split at h
    · rename_i x st1
      cases h
      refine ⟨⟨hs.done, fun y hy => ?_⟩, ?_⟩
      · rcases List.mem_cons.1 hy with rfl | hy
        · exact hs.stack x List.mem_cons_self
        · exact hs.stack y (List.mem_cons_of_mem _ hy)
      · simp only [done, emitAll_cons, emit, norm, List.append_assoc]
    · cases h
  | acctLeaf k nonce balance hc hst =>
    obtain ⟨st1, h1, h2⟩ := World.bind_ok.1 h
    cases h2
    obtain ⟨e1, e2⟩ := accountLeaf_ok hs.stack h1
    refine ⟨⟨hs.done, e1⟩, ?_⟩
    simp only [done, e2, norm, List.append_assoc]
  | branch mask =>
    obtain ⟨⟨c, st1⟩, h1, h2⟩ := World.bind_ok.1 h
    cases h2
    obtain ⟨e1, e2, e3, e4, e5, e6⟩ := branchLoop_ok hs.stack h1
    have hm : maskOf c = mask := by
      apply Nat.eq_of_testBit_eq
      intro n
      rw [maskOf_testBit]
      split
      · rename_i hn
        cases hb : mask.testBit n with
        | true => exact present_of_proper (e3 ⟨n, hn⟩ (by simp; omega) hb)
        | false => rw [e2 ⟨n, hn⟩ (by simp; omega) hb]; rfl
      · rename_i hn
        by_cases h64 : n < 64
        · exact (e4 n h64 (by omega)).symm
        · exact (Nat.testBit_lt_two_pow (Nat.lt_of_lt_of_le (hi mask rfl) (Nat.pow_le_pow_right (by omega) (by omega)))).symm
    refine ⟨⟨hs.done, fun y hy => ?_⟩, ?_⟩
    · rcases List.mem_cons.1 hy with rfl | hy
      · intro i
        cases hb : mask.testBit i.val with
        | true => exact .inr (e3 i (by omega) hb)
        | false => exact .inl (e2 i (by omega) hb)
      · exact e5 y hy
    · have := e6 (fun _ _ => rfl)
      rw [List.take_of_length_le (by simp)] at this
      simp only [done, emitAll_cons, emit, norm, hm, List.append_assoc, this]
  | newTrie =>
    obtain ⟨w, h1, h2⟩ := World.bind_ok.1 h
    cases h2
    obtain ⟨rfl, ht⟩ := finishStack_ok.1 h1
    refine ⟨⟨fun y hy => ?_, fun y hy => absurd hy (by simp)⟩, ?_⟩
    · rcases List.mem_append.1 hy with hy | hy
      · exact hs.done y hy
      · rw [List.mem_singleton.1 hy]; exact ⟨hs.stack w List.mem_cons_self, ht⟩
    · simp [done, emitAll, norm]
  | smtLeaf => cases h

theorem steps_ok {is : List Instr} (hi : ∀ m, .branch m ∈ is → m < 2 ^ 64) : ∀ {s s' : List WNode × List WNode}, StateOk s →
    is.foldlM step s = .ok s' → StateOk s' ∧ done s' = done s ++ is.map norm := by
  induction is with
  | nil => intro s s' hs h; cases h; exact ⟨hs, by simp⟩
  | cons i is ih =>
    intro s s' hs h
    rw [List.foldlM_cons] at h
    obtain ⟨s1, h1, h2⟩ := World.bind_ok.1 h
    obtain ⟨e1, e2⟩ := step_ok hs (fun m hm => hi m (by rw [hm]; exact List.mem_cons_self)) h1
    obtain ⟨e3, e4⟩ := ih (fun m hm => hi m (List.mem_cons_of_mem _ hm)) e1 h2
    exact ⟨e3, by rw [e4, e2]; simp⟩

theorem step_norm (s : List WNode × List WNode) (i : Instr) : step s (norm i) = step s i := by
  cases i <;> rfl

theorem steps_norm (is : List Instr) (s : List WNode × List WNode) : (is.map norm).foldlM step s = is.foldlM step s := by
  induction is generalizing s with
  | nil => rfl
  | cons i is ih =>
    rw [List.map_cons, List.foldlM_cons, List.foldlM_cons, step_norm]
    congr 1
    funext s1
    exact ih s1

/-- A node on the stack; absent nodes leave no trace. -/
def push (x : WNode) (st : List WNode) : List WNode := if x.present then x :: st else st

/-- The children with index below `n`, on the stack. -/
def pushAll (c : Nib → WNode) : Nat → List WNode → List WNode
  | 0, st => st
  | n + 1, st => if h : n < 16 then push (c ⟨n, h⟩) (pushAll c n st) else pushAll c n st

theorem branchLoop_emit (c : Nib → WNode) (n : Nat) (acc : Nib → WNode) (st : List WNode) (hc : ∀ i, (c i).present = false → c i = acc i) :
    branchLoop (maskOf c) n acc (pushAll c n st) = .ok (fun i => if i.val < n then c i else acc i, st) := by
  induction n generalizing acc with
  | zero => simp [branchLoop, pushAll]
  | succ n ih =>
    simp only [branchLoop, maskOf_testBit, pushAll]
    by_cases hn : n < 16
    · simp only [dif_pos hn]
      cases hp : (c ⟨n, hn⟩).present with
      | true =>
        simp only [push, hp, if_true]
        rw [ih]
        · congr 2
          funext i
          by_cases hi : i.val < n
          · rw [if_pos hi, if_pos (by omega)]
          · rw [if_neg hi]
            by_cases he : i = ⟨n, hn⟩
            · subst he; simp
            · rw [if_neg he, if_neg]
              intro h; exact he (Fin.ext (by simp; omega))
        · intro i hi
          rw [if_neg]
          · exact hc i hi
          · rintro rfl; rw [hp] at hi; cases hi
      | false =>
        simp only [push, hp, Bool.false_eq_true, if_false]
        rw [ih acc hc]
        congr 2
        funext i
        by_cases hi : i.val < n
        · rw [if_pos hi, if_pos (by omega)]
        · rw [if_neg hi]
          by_cases he : i = ⟨n, hn⟩
          · subst he; simp [hc _ hp]
          · rw [if_neg]
            intro h; exact he (Fin.ext (by simp; omega))
    · simp only [dif_neg hn, Bool.false_eq_true, if_false]
      rw [ih acc hc]
      congr 2
      funext i
      rw [if_pos (by omega), if_pos (by omega)]

theorem absent_of_not_present {x : WNode} (h : x.present = false) : x = .absent := by
  cases x <;> first | rfl | cases h

theorem present_of_proper' {x : WNode} (h : x = .absent ∨ Proper x) (hx : x.present = true) : Proper x := by
  rcases h with rfl | h
  · cases hx
  · exact h

/-- Executing the instructions of a node pushes it. -/
theorem exec_emit (n : WNode) : (n = .absent ∨ Proper n) → ∀ (ws st : List WNode),
    (emit n).foldlM step (ws, st) = .ok (ws, push n st) := by
  induction n with
  | hash h => intro _ ws st; rfl
  | value k v => intro _ ws st; rfl
  | code c => intro _ ws st; rfl
  | empty => intro _ ws st; rfl
  | absent => intro _ ws st; rfl
  | ext k c ih =>
    rintro (h | h) ws st
    · cases h
    have hc : c.present = true := present_of_proper h
    simp only [emit, List.foldlM_append, ih (.inr h)]
    simp only [push, hc, if_true]
    rfl
  | acct k nonce balance storage code ih =>
    rintro (h | h) ws st
    · cases h
    have h1 : code.emit.foldlM step (ws, st) = .ok (ws, match code with | .none => st | .hash h => .hash h :: st | .code c => .code c :: st) := by
      cases code <;> rfl
    have h2 := ih h
    have e : emit (.acct k nonce balance storage code) = code.emit ++ (emit storage ++
      [.acctLeaf k (some nonce) (some balance) code.present storage.present]) := by simp [emit]
    rw [e, List.foldlM_append, h1]
    simp only [bind, Except.bind]
    rw [List.foldlM_append, h2]
    simp only [bind, Except.bind, List.foldlM_cons, List.foldlM_nil, step]
    cases hs : storage.present with
    | true => cases code <;> simp [push, hs, accountLeaf, codeRef, CodeRef.present, bind, Except.bind, pure, Except.pure] <;> rfl
    | false =>
      have := absent_of_not_present hs
      subst this
      cases code <;> simp [push, WNode.present, accountLeaf, codeRef, CodeRef.present, bind, Except.bind, pure, Except.pure]
  | branch c ih =>
    rintro (h | h) ws st
    · cases h
    have key : ∀ n, n ≤ 16 → (((List.finRange 16).take n).flatMap (fun i => emit (c i))).foldlM step (ws, st) = .ok (ws, pushAll c n st) := by
      intro n
      induction n with
      | zero => intro _; rfl
      | succ n ihn =>
        intro hn
        rw [take_finRange_succ (by omega), List.flatMap_append, List.foldlM_append, ihn (by omega)]
        simp only [bind, Except.bind, List.flatMap_singleton]
        rw [ih ⟨n, by omega⟩ (h _)]
        simp only [pushAll, dif_pos (show n < 16 by omega)]
    have k16 := key 16 (Nat.le_refl _)
    rw [List.take_of_length_le (by simp)] at k16
    simp only [emit, List.foldlM_append, k16, bind, Except.bind, List.foldlM_cons, List.foldlM_nil, step]
    have h64 : ∀ n, pushAll c (16 + n) st = pushAll c 16 st := by
      intro n
      induction n with
      | zero => rfl
      | succ n ihn => rw [← ihn]; exact dif_neg (show ¬ 16 + n < 16 by omega)
    rw [← h64 48, branchLoop_emit c 64 _ st (fun i hi => absent_of_not_present hi)]
    simp only [push, WNode.present, if_true, pure, Except.pure]
    congr 4
    funext i
    rw [if_pos (by omega)]

/-- **C27**. Execution inverts emission, exactly: a stream executes to the witnesses `ns` if and only if it is made of
the instructions of `ns`, one after the other, separated by `NewTrie` (up to the optional nonce and balance, which
default to 0). -/
theorem C27_execute_exact (is : List Instr) (hi : ∀ m, .branch m ∈ is → m < 2 ^ 64) (ns : List WNode) :
    execute is = .ok ns ↔
      (ns ≠ [] ∧ (∀ n, n ∈ ns → Proper n ∧ Top n) ∧ is.map norm ++ [.newTrie] = ns.flatMap (fun n => emit n ++ [.newTrie])) := by
  constructor
  · intro h
    obtain ⟨s, h1, h⟩ := World.bind_ok.1 h
    obtain ⟨w, h2, h3⟩ := World.bind_ok.1 h
    cases h3
    obtain ⟨e1, e2⟩ := steps_ok hi ⟨fun _ h => absurd h (by simp), fun _ h => absurd h (by simp)⟩ h1
    obtain ⟨e3, e4⟩ := finishStack_ok.1 h2
    refine ⟨by simp, ?_, ?_⟩
    · intro n hn
      rcases List.mem_append.1 hn with hn | hn
      · exact e1.done n hn
      · rw [List.mem_singleton.1 hn]; exact ⟨e1.stack w (by rw [e3]; exact List.mem_cons_self), e4⟩
    · have : done ([], []) = [] := rfl
      rw [this, List.nil_append] at e2
      rw [← e2]
      simp [done, e3, emitAll]
  · rintro ⟨h1, h2, h3⟩
    obtain ⟨ns, n, rfl⟩ : ∃ l x, ns = l ++ [x] := ⟨ns.dropLast, ns.getLast h1, (List.dropLast_concat_getLast h1).symm⟩
    have h4 : is.map norm = ns.flatMap (fun n => emit n ++ [.newTrie]) ++ emit n := by
      rw [List.flatMap_append, List.flatMap_singleton, ← List.append_assoc] at h3
      exact List.append_cancel_right h3
    have key : ∀ (l ws : List WNode), (∀ n, n ∈ l → Proper n ∧ Top n) →
        (l.flatMap (fun n => emit n ++ [.newTrie])).foldlM step (ws, []) = .ok (ws ++ l, []) := by
      intro l
      induction l with
      | nil => intro ws _; simp; rfl
      | cons x l ih =>
        intro ws hl
        have hx := hl x List.mem_cons_self
        rw [List.flatMap_cons, List.append_assoc, List.foldlM_append, exec_emit x (.inr hx.1)]
        simp only [bind, Except.bind, push, present_of_proper hx.1, if_true, List.singleton_append, List.foldlM_cons, step,
          finishStack_ok.2 ⟨rfl, hx.2⟩, pure, Except.pure]
        rw [ih _ (fun y hy => hl y (List.mem_cons_of_mem _ hy))]
        simp
    have hn := h2 n (by simp)
    have hrun : is.foldlM step ([], []) = .ok (ns, [n]) := by
      rw [← steps_norm, h4, List.foldlM_append, key ns [] (fun y hy => h2 y (by simp [hy]))]
      simp only [bind, Except.bind, List.nil_append]
      rw [exec_emit n (.inr hn.1)]
      simp only [push, present_of_proper hn.1, if_true]
    unfold execute
    rw [hrun]
    simp only [bind, Except.bind, finishStack_ok.2 ⟨rfl, hn.2⟩, pure, Except.pure]

/-- **C27**. In particular the stream emitted for a node executes to that node, and no other node has this stream. -/
theorem C27_execute_roundtrip (n : WNode) (h : Proper n) (ht : Top n) : execute (emit n) = .ok [n] := by
  have h1 := exec_emit n (.inr h) [] []
  unfold execute
  rw [h1]
  simp only [bind, Except.bind, push, present_of_proper h, if_true, finishStack_ok.2 ⟨rfl, ht⟩, pure, Except.pure, List.nil_append]

/-! ## C27: the tries -/

section
variable (keccak : Bytes → H256)

/-- Specification: the hash an account commits to for its code. Without code it is the hash of the empty string. -/
def specCodeHash : CodeRef → H256
  | .none => keccak []
  | .hash h => h
  | .code c => keccak c

/-- The trie a node stands for: what it stores, structurally. -/
def toTrie : WNode → Node
  | .hash h => .hash h
  | .value k v => .leaf k (Rlp.str v)
  | .acct k nonce balance storage code =>
    .leaf k (World.encodeAcct ⟨BitVec.ofNat 256 nonce, balance, Mpt.rootHash keccak (toTrie storage), specCodeHash keccak code⟩)
  | .ext k c => .ext k (toTrie c)
  | .branch c => .branch (fun i => toTrie (c i)) []
  | .code _ => .empty
  | .empty => .empty
  | .absent => .empty

/-- Nodes of a storage trie: no accounts, no code, nothing deeper than `m` nibbles. -/
def StorageNode : Nat → WNode → Prop
  | _, .hash _ => True
  | m, .value k _ => k.length ≤ m
  | _, .acct _ _ _ _ _ => False
  | m, .ext k c => k.length ≤ m ∧ StorageNode (m - k.length) c
  | m, .branch c => 0 < m ∧ ∀ i, StorageNode (m - 1) (c i)
  | _, .code _ => False
  | _, .empty => True
  | _, .absent => True

/-- Nodes of a state trie: no bare values, accounts exactly `m` nibbles deep, with canonical storage tries. -/
def StateNode : Nat → WNode → Prop
  | _, .hash _ => True
  | _, .value _ _ => False
  | m, .acct k _ _ storage _ => k.length = m ∧ StorageNode 64 storage ∧ Mpt.WF (toTrie keccak storage)
  | m, .ext k c => k.length ≤ m ∧ StateNode (m - k.length) c
  | m, .branch c => 0 < m ∧ ∀ i, StateNode (m - 1) (c i)
  | _, .code _ => True
  | _, .empty => True
  | _, .absent => True

end

/-- The accounts of a state trie: path, storage and code. -/
def accounts : Key → WNode → List (Key × WNode × CodeRef)
  | path, .acct k _ _ storage code => [(path ++ k, storage, code)]
  | path, .ext k c => accounts (path ++ k) c
  | path, .branch c => (List.finRange 16).flatMap (fun i => accounts (path ++ [i]) (c i))
  | _, _ => []

/-- The codes of a node, in order. -/
def codes : WNode → List Bytes
  | .acct _ _ _ _ code => code.codes
  | .ext _ c => codes c
  | .branch c => (List.finRange 16).flatMap (fun i => codes (c i))
  | .code c => [c]
  | _ => []

/-! ### Inserting the entries of a canonical trie, in any order, re-builds it -/

theorem wf_prefix_free {t : Node} (hw : Mpt.WF t) : ∀ {k k' : Key}, Mpt.lookup t k ≠ none → Mpt.lookup t k' ≠ none → k <+: k' → k = k' := by
  induction t with
  | empty => intro k k' h; simp [Mpt.lookup] at h
  | hash x =>
    intro k k' h h' _
    simp only [Mpt.lookup] at h h'
    split at h <;> split at h' <;> simp_all
  | leaf n v =>
    intro k k' h h' _
    simp only [Mpt.lookup] at h h'
    split at h <;> split at h' <;> simp_all
  | ext n c ih =>
    intro k k' h h' hp
    simp only [Mpt.lookup] at h h'
    split at h
    · rename_i h1
      split at h'
      · rename_i h2
        obtain ⟨r, rfl⟩ := h1
        obtain ⟨r', rfl⟩ := h2
        simp only [List.drop_left] at h h'
        rw [List.prefix_append_right_inj] at hp
        rw [ih hw.2.2 h h' hp]
      · exact absurd rfl h'
    · exact absurd rfl h
  | branch c v ih =>
    intro k k' h h' hp
    cases k with
    | nil => rw [Mpt.lookup_branch_nil, hw.1] at h; simp at h
    | cons i k =>
      cases k' with
      | nil => simp at hp
      | cons j k' =>
        obtain ⟨rfl, hp'⟩ := List.cons_prefix_cons.1 hp
        rw [Mpt.lookup_branch_cons] at h h'
        rw [ih i (hw.2.1 i) h h' hp']

/-- The list of entries inserted one by one. -/
def insertAll (t : Node) (l : List (Key × Entry)) : Except Mpt.Fault Node := l.foldlM (fun t x => Mpt.insert t x.1 x.2) t

theorem insertAll_spec (l : List (Key × Entry)) : ∀ (t : Node), Mpt.WF t → (∀ k e, (k, e) ∈ l → Mpt.Compat t k ∧ Mpt.lookup t k = none) →
    l.Pairwise (fun a b => ¬ a.1 <+: b.1 ∧ ¬ b.1 <+: a.1) →
    ∃ t', insertAll t l = .ok t' ∧ Mpt.WF t' ∧ ∀ k e, Mpt.lookup t' k = some e ↔ Mpt.lookup t k = some e ∨ (k, e) ∈ l := by
  induction l with
  | nil => intro t hw _ _; exact ⟨t, rfl, hw, by simp⟩
  | cons x l ih =>
    intro t hw hc hp
    obtain ⟨k, e⟩ := x
    obtain ⟨h1, h2⟩ := hc k e List.mem_cons_self
    rw [List.pairwise_cons] at hp
    cases hi : Mpt.insertRec t k e with
    | error f =>
      rcases Mpt.insertRec_error hw h1 hi with ⟨h, hl, -⟩ | ⟨h, v, hl, -⟩ <;> rw [h2] at hl <;> cases hl
    | ok t1 =>
      have hl := Mpt.lookup_insertRec hi (h1.insOk hw e)
      obtain ⟨w1, -, -⟩ := Mpt.insertRec_wf hw h1 hi
      obtain ⟨t', r1, r2, r3⟩ := ih t1 w1 (by
        intro k' e' hm
        obtain ⟨a, b⟩ := hp.1 _ hm
        obtain ⟨c, d⟩ := hc k' e' (List.mem_cons_of_mem _ hm)
        have hne : k' ≠ k := by rintro rfl; exact a (List.prefix_refl _)
        refine ⟨fun q hq hpq => ?_, by rw [hl, if_neg hne]; exact d⟩
        rw [hl] at hq
        split at hq
        · rename_i hqk; subst hqk
          rcases hpq with h | h
          · exact absurd h a
          · exact absurd h b
        · exact c q hq hpq) hp.2
      refine ⟨t', ?_, r2, fun k' e' => ?_⟩
      · show (Mpt.insert t k e >>= _) = _
        unfold Mpt.insert
        rw [hi]
        exact r1
      · rw [r3, hl]
        split
        · rename_i hk; subst hk
          rw [h2]
          simp only [Option.some.injEq, List.mem_cons, Prod.mk.injEq, true_and, reduceCtorEq, false_or]
          constructor
          · rintro (h | h)
            · exact .inl h.symm
            · exact .inr h
          · rintro (h | h)
            · exact .inl h.symm
            · exact .inr h
        · rename_i hk
          simp [hk]

theorem entries_apart {t : Node} (hw : Mpt.WF t) : (Mpt.entries t []).Pairwise (fun a b => ¬ a.1 <+: b.1 ∧ ¬ b.1 <+: a.1) := by
  have hs := Mpt.entries_sorted hw []
  have hm : ∀ a, a ∈ Mpt.entries t [] → Mpt.lookup t a.1 ≠ none := by
    rintro ⟨k, e⟩ ha
    obtain ⟨r, hr, hl⟩ := Mpt.mem_entries.1 ha
    rw [List.nil_append] at hr
    subst hr
    rw [hl]; simp
  refine List.Pairwise.imp_of_mem (fun {a b} ha hb hlt => ?_) hs
  refine ⟨fun h => ?_, fun h => ?_⟩
  · have := wf_prefix_free hw (hm a ha) (hm b hb) h
    rw [this] at hlt
    exact absurd hlt (List.lt_irrefl _)
  · have := wf_prefix_free hw (hm b hb) (hm a ha) h
    rw [this] at hlt
    exact absurd hlt (List.lt_irrefl _)

/-- A canonical trie is re-built from its entries. -/
theorem rebuild {t : Node} (hw : Mpt.WF t) : insertAll .empty (Mpt.entries t []) = .ok t := by
  obtain ⟨t', h1, h2, h3⟩ := insertAll_spec (Mpt.entries t []) .empty trivial
    (fun k e _ => ⟨fun k' hk' => by simp [Mpt.lookup] at hk', rfl⟩) (entries_apart hw)
  rw [h1]
  congr 1
  refine Mpt.wf_unique h2 hw (fun k => ?_)
  have hk : ∀ e, Mpt.lookup t' k = some e ↔ Mpt.lookup t k = some e := by
    intro e
    rw [h3]
    simp only [Mpt.lookup, reduceCtorEq, false_or, Mpt.mem_entries, List.nil_append]
    constructor
    · rintro ⟨r, rfl, h⟩; exact h
    · intro h; exact ⟨k, rfl, h⟩
  cases hl : Mpt.lookup t k with
  | some e => exact (hk e).2 hl
  | none =>
    cases hl' : Mpt.lookup t' k with
    | none => rfl
    | some e => rw [(hk e).1 hl'] at hl; cases hl

/-- A trie fault as an error. -/
def lift {α} : Except Mpt.Fault α → Except Err α
  | .ok a => .ok a
  | .error f => .error (.trie f)

theorem lift_foldlM {α β} (f : β → α → Except Mpt.Fault β) (l : List α) (b : β) :
    lift (l.foldlM f b) = l.foldlM (fun b a => lift (f b a)) b := by
  induction l generalizing b with
  | nil => rfl
  | cons a l ih =>
    rw [List.foldlM_cons, List.foldlM_cons]
    cases f b a with
    | error e => rfl
    | ok b' => exact ih b'

theorem foldlM_flatMap {α β γ} {ε : Type} (f : β → γ → Except ε β) (g : α → List γ) (l : List α) (b : β) :
    (l.flatMap g).foldlM f b = l.foldlM (fun b a => (g a).foldlM f b) b := by
  induction l generalizing b with
  | nil => rfl
  | cons a l ih =>
    rw [List.flatMap_cons, List.foldlM_append, List.foldlM_cons]
    congr 1
    funext b'
    exact ih b'

theorem insertAt_eq {t : Node} {k : Key} {e : Entry} (h : k.length ≤ 64) : insertAt t k e = lift (Mpt.insert t k e) := by
  unfold insertAt
  rw [if_pos h]
  cases Mpt.insert t k e <;> rfl

/-- The storage visitor inserts the entries of the trie. -/
theorem visitStorage_eq (keccak : Bytes → H256) (n : WNode) : ∀ (m : Nat) (path : Key) (t : Node), StorageNode m n → path.length + m = 64 →
    visitStorage n path t = lift (insertAll t (Mpt.entries (toTrie keccak n) path)) := by
  induction n with
  | hash h =>
    intro m path t hn hm
    simp only [visitStorage, toTrie, Mpt.entries, insertAll, List.foldlM_cons, List.foldlM_nil]
    rw [insertAt_eq (by omega)]
    cases Mpt.insert t path (.hash h) <;> rfl
  | value k v =>
    intro m path t hn hm
    simp only [visitStorage, toTrie, Mpt.entries, insertAll, List.foldlM_cons, List.foldlM_nil]
    simp only [StorageNode] at hn
    rw [insertAt_eq (by simp; omega)]
    cases Mpt.insert t (path ++ k) (.val (Rlp.str v)) <;> rfl
  | acct => intro m path t hn; exact hn.elim
  | code => intro m path t hn; exact hn.elim
  | empty => intro m path t hn hm; rfl
  | absent => intro m path t hn hm; rfl
  | ext k c ih =>
    intro m path t hn hm
    simp only [visitStorage, toTrie, Mpt.entries]
    exact ih (m - k.length) _ _ hn.2 (by have := hn.1; simp; omega)
  | branch c ih =>
    intro m path t hn hm
    simp only [visitStorage, toTrie, Mpt.entries, List.isEmpty_nil, if_true, List.append_nil]
    unfold insertAll
    rw [foldlM_flatMap, lift_foldlM]
    congr 1
    funext t' i
    exact ih i (m - 1) _ _ (hn.2 i) (by have := hn.1; simp; omega)

/-- **C27**. The storage trie of an account is the trie its node stands for. -/
theorem C27_storage (keccak : Bytes → H256) (n : WNode) (hn : StorageNode 64 n) (hw : Mpt.WF (toTrie keccak n)) :
    visitStorage n [] .empty = .ok (toTrie keccak n) := by
  rw [visitStorage_eq keccak n 64 [] .empty hn rfl, rebuild hw]
  rfl

/-! ### The state trie -/

theorem hashOf_ok {k : Key} (h : k.length = 64) : ∃ x, hashOf k = .ok x ∧ World.keyOfHash x = k := by
  have hu : Mpt.unpack (Mpt.pack k) = k := Mpt.unpack_pack k (by omega)
  have hl : (Mpt.pack k).length = 32 := by
    have := World.unpack_length (Mpt.pack k)
    rw [hu] at this; omega
  refine ⟨⟨Mpt.pack k, hl⟩, ?_, hu⟩
  unfold hashOf
  rw [if_pos (by omega), World.intoHash, if_pos h]
  simp only [Option.bind, World.decodeH256, dif_pos hl]

/-- The parts of a state trie. -/
inductive Item where
  | hash (h : H256)
  | acct (nonce : Nat) (balance : U256) (storage : WNode) (code : CodeRef)
  | code (c : Bytes)

def items : WNode → Key → List (Key × Item)
  | .hash h, path => [(path, .hash h)]
  | .value _ _, _ => []
  | .acct k nonce balance storage code, path => [(path ++ k, .acct nonce balance storage code)]
  | .ext k c, path => items c (path ++ k)
  | .branch c, path => (List.finRange 16).flatMap (fun i => items (c i) (path ++ [i]))
  | .code c, path => [(path, .code c)]
  | .empty, _ => []
  | .absent, _ => []

section
variable (keccak : Bytes → H256)

def visitItem (F : Frontend) (x : Key × Item) : Except Err Frontend :=
  match x.2 with
  | .hash h => do
    let st ← insertAt F.state x.1 (.hash h)
    return { F with state := st }
  | .acct nonce balance storage code => visitAcct keccak F x.1 nonce balance (visitStorage storage [] .empty) code
  | .code c => .ok { F with code := F.code ++ [c] }

def entryOf (x : Key × Item) : Option (Key × Entry) :=
  match x.2 with
  | .hash h => some (x.1, .hash h)
  | .acct nonce balance storage code =>
    some (x.1, .val (World.encodeAcct ⟨BitVec.ofNat 256 nonce, balance, Mpt.rootHash keccak (toTrie keccak storage), specCodeHash keccak code⟩))
  | .code _ => none

def acctOf (x : Key × Item) : Option (Key × WNode × CodeRef) :=
  match x.2 with
  | .acct _ _ storage code => some (x.1, storage, code)
  | _ => none

def codesOf (x : Key × Item) : List Bytes :=
  match x.2 with
  | .hash _ => []
  | .acct _ _ _ code => code.codes
  | .code c => [c]

def ItemOk (x : Key × Item) : Prop :=
  match x.2 with
  | .hash _ => x.1.length ≤ 64
  | .acct _ _ storage _ => x.1.length = 64 ∧ StorageNode 64 storage ∧ Mpt.WF (toTrie keccak storage)
  | .code _ => True

theorem visit_items (n : WNode) : ∀ (m : Nat) (path : Key) (F : Frontend), StateNode keccak m n →
    visit keccak n path F = (items n path).foldlM (visitItem keccak) F := by
  induction n with
  | hash h =>
    intro m path F hn
    simp only [visit, items, List.foldlM_cons, List.foldlM_nil, visitItem]
    cases insertAt F.state path (.hash h) <;> rfl
  | value => intro m path F hn; exact hn.elim
  | acct k nonce balance storage code _ =>
    intro m path F hn
    simp only [visit, items, List.foldlM_cons, List.foldlM_nil, visitItem]
    cases visitAcct keccak F (path ++ k) nonce balance (visitStorage storage [] .empty) code <;> rfl
  | ext k c ih => intro m path F hn; exact ih _ _ _ hn.2
  | branch c ih =>
    intro m path F hn
    simp only [visit, items]
    rw [foldlM_flatMap]
    congr 1
    funext F' i
    exact ih i (m - 1) _ _ (hn.2 i)
  | code => intro m path F hn; rfl
  | empty => intro m path F hn; rfl
  | absent => intro m path F hn; rfl

theorem items_ok (n : WNode) : ∀ (m : Nat) (path : Key), StateNode keccak m n → path.length + m = 64 →
    ∀ x, x ∈ items n path → ItemOk keccak x := by
  induction n with
  | hash h => intro m path hn hm x hx; rw [List.mem_singleton.1 hx]; show path.length ≤ 64; omega
  | value => intro m path hn hm x hx; cases hx
  | acct k nonce balance storage code _ =>
    intro m path hn hm x hx
    rw [List.mem_singleton.1 hx]
    exact ⟨by have := hn.1; simp; omega, hn.2.1, hn.2.2⟩
  | ext k c ih => intro m path hn hm x hx; exact ih _ _ hn.2 (by have := hn.1; simp; omega) x hx
  | branch c ih =>
    intro m path hn hm x hx
    obtain ⟨i, -, hx⟩ := List.mem_flatMap.1 hx
    exact ih i _ _ (hn.2 i) (by have := hn.1; simp; omega) x hx
  | code => intro m path hn hm x hx; rw [List.mem_singleton.1 hx]; trivial
  | empty => intro m path hn hm x hx; cases hx
  | absent => intro m path hn hm x hx; cases hx

theorem filterMap_flatMap {α β γ} (f : β → Option γ) (g : α → List β) (l : List α) :
    (l.flatMap g).filterMap f = l.flatMap (fun a => (g a).filterMap f) := by
  induction l with
  | nil => rfl
  | cons a l ih => simp [ih]

theorem flatMap_flatMap {α β γ} (f : β → List γ) (g : α → List β) (l : List α) :
    (l.flatMap g).flatMap f = l.flatMap (fun a => (g a).flatMap f) := by
  induction l with
  | nil => rfl
  | cons a l ih => simp [ih]

theorem items_entries (n : WNode) : ∀ (m : Nat) (path : Key), StateNode keccak m n →
    (items n path).filterMap (entryOf keccak) = Mpt.entries (toTrie keccak n) path := by
  induction n with
  | hash h => intro m path hn; rfl
  | value => intro m path hn; exact hn.elim
  | acct k nonce balance storage code _ => intro m path hn; rfl
  | ext k c ih => intro m path hn; exact ih _ _ hn.2
  | branch c ih =>
    intro m path hn
    simp only [items, toTrie, Mpt.entries, List.isEmpty_nil, if_true, List.append_nil]
    rw [filterMap_flatMap]
    congr 1
    funext i
    exact ih i _ _ (hn.2 i)
  | code => intro m path hn; rfl
  | empty => intro m path hn; rfl
  | absent => intro m path hn; rfl

theorem items_accounts (n : WNode) : ∀ (path : Key), (items n path).filterMap acctOf = accounts path n := by
  induction n with
  | ext k c ih => intro path; exact ih _
  | branch c ih =>
    intro path
    simp only [items, accounts]
    rw [filterMap_flatMap]
    congr 1
    funext i
    exact ih i _
  | _ => intro path; rfl

theorem items_codes (n : WNode) : ∀ (path : Key), (items n path).flatMap codesOf = codes n := by
  induction n with
  | ext k c ih => intro path; exact ih _
  | branch c ih =>
    intro path
    simp only [items, codes]
    rw [flatMap_flatMap]
    congr 1
    funext i
    exact ih i _
  | acct k nonce balance storage code _ => intro path; simp [items, codes, codesOf]
  | _ => intro path; rfl

/-- The accounts are among the entries. -/
theorem acct_entry {l : List (Key × Item)} {x : Key × WNode × CodeRef} (h : x ∈ l.filterMap acctOf) :
    ∃ v, (x.1, Entry.val v) ∈ l.filterMap (entryOf keccak) := by
  obtain ⟨y, hy, he⟩ := List.mem_filterMap.1 h
  obtain ⟨p, i⟩ := y
  cases i with
  | acct nonce balance storage code =>
    cases he
    exact ⟨_, List.mem_filterMap.2 ⟨_, hy, rfl⟩⟩
  | hash => cases he
  | code => cases he

theorem visitItems_spec (l : List (Key × Item)) : ∀ (F : Frontend) (t' : Node), (∀ x, x ∈ l → ItemOk keccak x) →
    insertAll F.state (l.filterMap (entryOf keccak)) = .ok t' →
    (l.filterMap (entryOf keccak)).Pairwise (fun a b => a.1 ≠ b.1) →
    (∀ h p e, (p, e) ∈ l.filterMap (entryOf keccak) → World.keyOfHash h = p → F.storage h = none) →
    ∃ F', l.foldlM (visitItem keccak) F = .ok F' ∧ F'.state = t' ∧ F'.code = F.code ++ l.flatMap codesOf ∧
      ∀ h t, F'.storage h = some t ↔ F.storage h = some t ∨
        ∃ s c, (World.keyOfHash h, s, c) ∈ l.filterMap acctOf ∧ t = toTrie keccak s := by
  induction l with
  | nil =>
    intro F t' _ h1 _ _
    cases h1
    exact ⟨F, rfl, rfl, by simp, by simp⟩
  | cons x l ih =>
    intro F t' hok h1 h2 h3
    obtain ⟨p, i⟩ := x
    have hx := hok _ List.mem_cons_self
    have hok' : ∀ x, x ∈ l → ItemOk keccak x := fun x hx => hok x (List.mem_cons_of_mem _ hx)
    cases i with
    | code c =>
      obtain ⟨F', r1, r2, r3, r4⟩ := ih { F with code := F.code ++ [c] } t' hok' h1 h2 h3
      exact ⟨F', r1, r2, by rw [r3]; simp [codesOf], r4⟩
    | hash h =>
      have e1 : ((p, Item.hash h) :: l).filterMap (entryOf keccak) = (p, .hash h) :: l.filterMap (entryOf keccak) := rfl
      rw [e1] at h1 h2 h3
      obtain ⟨t1, i1, i2⟩ := World.bind_ok.1 (show (Mpt.insert F.state p (.hash h) >>= _) = _ from h1)
      rw [List.pairwise_cons] at h2
      obtain ⟨F', r1, r2, r3, r4⟩ := ih { F with state := t1 } t' hok' i2 h2.2
        (fun h p e hm => h3 h p e (List.mem_cons_of_mem _ hm))
      refine ⟨F', ?_, r2, r3, r4⟩
      rw [List.foldlM_cons]
      simp only [visitItem, insertAt_eq (show p.length ≤ 64 from hx), i1, lift]
      exact r1
    | acct nonce balance storage code =>
      obtain ⟨hl, hs, hw⟩ := hx
      obtain ⟨hh, hh1, hh2⟩ := hashOf_ok hl
      have e1 : ((p, Item.acct nonce balance storage code) :: l).filterMap (entryOf keccak) = (p, .val (World.encodeAcct
        ⟨BitVec.ofNat 256 nonce, balance, Mpt.rootHash keccak (toTrie keccak storage), specCodeHash keccak code⟩)) ::
          l.filterMap (entryOf keccak) := rfl
      have e2 : ((p, Item.acct nonce balance storage code) :: l).filterMap acctOf = (p, storage, code) :: l.filterMap acctOf := rfl
      rw [e1] at h1 h2 h3
      obtain ⟨t1, i1, i2⟩ := World.bind_ok.1 (show (Mpt.insert F.state p _ >>= _) = _ from h1)
      rw [List.pairwise_cons] at h2
      have hnone := h3 hh p _ List.mem_cons_self hh2
      obtain ⟨F', r1, r2, r3, r4⟩ := ih ⟨t1, F.code ++ code.codes,
          World.setStorage F.storage hh (some (toTrie keccak storage))⟩ t' hok' i2 h2.2 (by
        intro h p' e hm hk
        simp only [World.setStorage]
        rw [if_neg]
        · exact h3 h p' e (List.mem_cons_of_mem _ hm) hk
        · rintro rfl
          exact h2.1 _ hm (by simp only; rw [← hk, hh2]))
      refine ⟨F', ?_, r2, by rw [r3]; simp [codesOf], fun h t => ?_⟩
      · rw [List.foldlM_cons]
        have hc : code.codeHash keccak = specCodeHash keccak code := by cases code <;> rfl
        simp only [visitItem, visitAcct, hh1, C27_storage keccak storage hs hw, bind, Except.bind, hnone, World.stateInsert, hh2, hc, i1,
          World.ofTrie]
        exact r1
      · rw [r4, e2]
        simp only [World.setStorage, List.mem_cons, Prod.mk.injEq]
        by_cases hh' : h = hh
        · subst hh'
          rw [if_pos rfl, hnone]
          simp only [Option.some.injEq, reduceCtorEq, false_or]
          constructor
          · rintro (rfl | ⟨s, c, hm, rfl⟩)
            · exact ⟨storage, code, .inl ⟨hh2, rfl, rfl⟩, rfl⟩
            · exact ⟨s, c, .inr hm, rfl⟩
          · rintro ⟨s, c, ⟨-, rfl, rfl⟩ | hm, rfl⟩
            · exact .inl rfl
            · exact .inr ⟨s, c, hm, rfl⟩
        · rw [if_neg hh']
          have hne : World.keyOfHash h ≠ p := by
            intro he
            exact hh' ((World.C15_hash_key h hh).2.2 (he.trans hh2.symm))
          simp [hne]

/-- **C27**. Decoding the stream of a canonical state trie re-builds that trie, the storage tries of its accounts (by
hashed address) and no others, and the codes of the stream. -/
theorem C27_frontend (n : WNode) (hp : Proper n) (ht : Top n) (hn : StateNode keccak 64 n) (hw : Mpt.WF (toTrie keccak n))
    (is : List Instr) (his : is.map norm = emit n) :
    ∃ F, frontend keccak is = .ok F ∧ F.state = toTrie keccak n ∧ F.code = codes n ∧
      ∀ h t, F.storage h = some t ↔ ∃ s c, (World.keyOfHash h, s, c) ∈ accounts [] n ∧ t = toTrie keccak s := by
  have hx : execute is = .ok [n] := by
    have h1 := exec_emit n (.inr hp) [] []
    unfold execute
    rw [← steps_norm, his, h1]
    simp only [bind, Except.bind, push, present_of_proper hp, if_true, finishStack_ok.2 ⟨rfl, ht⟩, pure, Except.pure, List.nil_append]
  have he := items_entries keccak n 64 [] hn
  obtain ⟨F, r1, r2, r3, r4⟩ := visitItems_spec keccak (items n []) {} (toTrie keccak n) (items_ok keccak n 64 [] hn rfl)
    (by rw [he]; exact rebuild hw)
    (by rw [he]; exact (entries_apart hw).imp (fun {a b} h (e : a.1 = b.1) => h.1 (e ▸ List.prefix_refl _)))
    (fun _ _ _ _ _ => rfl)
  refine ⟨F, ?_, r2, ?_, fun h t => ?_⟩
  · unfold frontend
    rw [hx]
    simp only [bind, Except.bind]
    rw [visit_items keccak n 64 [] {} hn]
    exact r1
  · rw [r3, items_codes]; rfl
  · rw [r4, items_accounts]
    simp

theorem newLoop_ok (l : List (Key × Entry)) (S : H256 → Option Node)
    (h : ∀ k v, (k, Entry.val v) ∈ l → ∃ x a t, World.keyOfHash x = k ∧ v = World.encodeAcct a ∧ S x = some t ∧
      Mpt.rootHash keccak t = a.storageRoot) : World.newLoop keccak S l = .ok S := by
  induction l with
  | nil => rfl
  | cons e l ih =>
    have ih' := ih (fun k v hm => h k v (List.mem_cons_of_mem _ hm))
    obtain ⟨k, e⟩ := e
    cases e with
    | hash => exact ih'
    | val v =>
      obtain ⟨x, a, t, rfl, rfl, hS, hr⟩ := h k v List.mem_cons_self
      simp only [World.newLoop, (World.C15_hash_key x x).2.1, Option.bind, World.decodeH256_bytes, World.decode_encode, hS,
        Option.getD_some, hr, if_true]
      have : World.setStorage S x (some t) = S := by
        funext y
        unfold World.setStorage
        split
        · rename_i hy; rw [hy, hS]
        · rfl
      rw [this]; exact ih'

theorem acct_of_entry {l : List (Key × Item)} {k : Key} {v : Bytes} (h : (k, Entry.val v) ∈ l.filterMap (entryOf keccak)) :
    ∃ s c nonce balance, (k, s, c) ∈ l.filterMap acctOf ∧
      v = World.encodeAcct ⟨BitVec.ofNat 256 nonce, balance, Mpt.rootHash keccak (toTrie keccak s), specCodeHash keccak c⟩ := by
  obtain ⟨⟨p, i⟩, hy, he⟩ := List.mem_filterMap.1 h
  cases i with
  | acct nonce balance storage code =>
    cases he
    exact ⟨storage, code, nonce, balance, List.mem_filterMap.2 ⟨_, hy, rfl⟩, rfl⟩
  | hash => cases he
  | code => cases he

/-- **C27, C26**. `Type1World::new` accepts what was decoded, unchanged: every account has its storage trie, with the
root the account commits to. -/
theorem C27_world (n : WNode) (hn : StateNode keccak 64 n) (F : Frontend) (hF : F.state = toTrie keccak n)
    (hS : ∀ h t, F.storage h = some t ↔ ∃ s c, (World.keyOfHash h, s, c) ∈ accounts [] n ∧ t = toTrie keccak s) :
    World.new1 keccak F.state (Mpt.entries F.state []) F.storage = .ok ⟨toTrie keccak n, F.storage⟩ := by
  unfold World.new1
  have he := items_entries keccak n 64 [] hn
  rw [newLoop_ok]
  · rw [hF]; rfl
  · intro k v hm
    rw [hF, ← he] at hm
    obtain ⟨s, c, nonce, balance, hm', rfl⟩ := acct_of_entry keccak hm
    have hk : k.length = 64 := by
      obtain ⟨⟨p, i⟩, hy, he⟩ := List.mem_filterMap.1 hm'
      have hi := items_ok keccak n 64 [] hn rfl _ hy
      cases i with
      | acct nonce balance storage code => cases he; exact hi.1
      | hash => cases he
      | code => cases he
    obtain ⟨x, -, hx⟩ := hashOf_ok hk
    subst hx
    rw [items_accounts] at hm'
    exact ⟨x, _, _, rfl, rfl, (hS x _).2 ⟨s, c, hm', rfl⟩, rfl⟩

/-- **C27, C06**. If the trie of the witness is the full state trie with some parts hashed out, the decoded state has
the root of the full state. -/
theorem C27_root (n : WNode) (hp : Proper n) (ht : Top n) (hn : StateNode keccak 64 n) (hw : Mpt.WF (toTrie keccak n))
    (is : List Instr) (his : is.map norm = emit n) (full : Node) (hm : Mpt.Mask keccak (fun _ => True) (toTrie keccak n) full) :
    ∃ F, frontend keccak is = .ok F ∧ Mpt.rootHash keccak F.state = Mpt.rootHash keccak full := by
  obtain ⟨F, h1, h2, -⟩ := C27_frontend keccak n hp ht hn hw is his
  exact ⟨F, h1, by rw [h2]; exact hm.rootHash⟩

/-! ## C27: what is rejected -/

/-- What the storage visitor lets through. -/
def StorageShape : Key → WNode → Prop
  | path, .hash _ => path.length ≤ 64
  | path, .value k _ => (path ++ k).length ≤ 64
  | _, .acct _ _ _ _ _ => False
  | path, .ext k c => StorageShape (path ++ k) c
  | path, .branch c => ∀ i, StorageShape (path ++ [i]) (c i)
  | _, .code _ => False
  | _, .empty => True
  | _, .absent => True

/-- What the state visitor lets through. -/
def StateShape : Key → WNode → Prop
  | path, .hash _ => path.length ≤ 64
  | _, .value _ _ => False
  | path, .acct k _ _ storage _ => (path ++ k).length = 64 ∧ StorageShape [] storage
  | path, .ext k c => StateShape (path ++ k) c
  | path, .branch c => ∀ i, StateShape (path ++ [i]) (c i)
  | _, .code _ => True
  | _, .empty => True
  | _, .absent => True

end

theorem foldlM_each {α β} {ε : Type} {f : β → α → Except ε β} {l : List α} {b b' : β} (h : l.foldlM f b = .ok b') :
    ∀ a, a ∈ l → ∃ x y, f x a = .ok y := by
  induction l generalizing b with
  | nil => intro a ha; cases ha
  | cons c l ih =>
    intro a ha
    rw [List.foldlM_cons] at h
    obtain ⟨b1, h1, h2⟩ := World.bind_ok.1 h
    rcases List.mem_cons.1 ha with rfl | ha
    · exact ⟨_, _, h1⟩
    · exact ih h2 a ha

theorem insertAt_len {t t' : Node} {k : Key} {e : Entry} (h : insertAt t k e = .ok t') : k.length ≤ 64 := by
  unfold insertAt at h
  split at h
  · assumption
  · cases h

theorem visitStorage_shape (n : WNode) : ∀ (path : Key) (t t' : Node), visitStorage n path t = .ok t' → StorageShape path n := by
  induction n with
  | hash x => intro path t t' h; exact insertAt_len h
  | value k v => intro path t t' h; exact insertAt_len h
  | acct => intro path t t' h; cases h
  | code => intro path t t' h; cases h
  | empty => intro path t t' h; trivial
  | absent => intro path t t' h; trivial
  | ext k c ih => intro path t t' h; exact ih _ _ _ h
  | branch c ih =>
    intro path t t' h i
    obtain ⟨x, y, hxy⟩ := foldlM_each h i (List.mem_finRange i)
    exact ih i _ _ _ hxy

theorem hashOf_len {k : Key} {x : H256} (h : hashOf k = .ok x) : k.length = 64 := by
  unfold hashOf at h
  split at h
  · split at h
    · rename_i hb
      unfold World.intoHash at hb
      split at hb
      · assumption
      · cases hb
    · cases h
  · cases h

theorem visit_shape (keccak : Bytes → H256) (n : WNode) : ∀ (path : Key) (F F' : Frontend), visit keccak n path F = .ok F' → StateShape path n := by
  induction n with
  | hash x =>
    intro path F F' h
    obtain ⟨t, h1, -⟩ := World.bind_ok.1 h
    exact insertAt_len h1
  | value k v =>
    intro path F F' h
    obtain ⟨t, h1, h2⟩ := World.bind_ok.1 h
    cases h2
  | acct k nonce balance storage code _ =>
    intro path F F' h
    obtain ⟨x, h1, h⟩ := World.bind_ok.1 h
    obtain ⟨t, h2, -⟩ := World.bind_ok.1 h
    exact ⟨hashOf_len h1, visitStorage_shape _ _ _ _ h2⟩
  | code => intro path F F' h; trivial
  | empty => intro path F F' h; trivial
  | absent => intro path F F' h; trivial
  | ext k c ih => intro path F F' h; exact ih _ _ _ h
  | branch c ih =>
    intro path F F' h i
    obtain ⟨x, y, hxy⟩ := foldlM_each h i (List.mem_finRange i)
    exact ih i _ _ _ hxy

/-- **C27**. Whatever is decoded is one complete node in postorder, with accounts exactly 64 nibbles deep, no bare
value among the accounts, and no account or code in a storage trie. Everything else is an error. -/
theorem C27_rejects (keccak : Bytes → H256) (is : List Instr) (hi : ∀ m, .branch m ∈ is → m < 2 ^ 64) (F : Frontend)
    (h : frontend keccak is = .ok F) : ∃ n, Proper n ∧ Top n ∧ is.map norm = emit n ∧ StateShape [] n := by
  obtain ⟨ws, h1, h2⟩ := World.bind_ok.1 h
  obtain ⟨e1, e2, e3⟩ := (C27_execute_exact is hi ws).1 h1
  match ws, h2 with
  | [w], h2 =>
    have hw := e2 w List.mem_cons_self
    refine ⟨w, hw.1, hw.2, ?_, visit_shape keccak w _ _ _ h2⟩
    rw [List.flatMap_singleton] at e3
    exact List.append_cancel_right e3

theorem emit_ne {n : WNode} (h : Top n) : emit n ≠ [] := by
  cases n <;> first | exact h.elim | simp [emit]

/-- **C27, C60**. From bytes to the world: the bytes of the stream of a canonical state trie parse, decode, and make a
world whose state trie is that trie. -/
theorem C27_bytes (keccak : Bytes → H256) {C : Cbor} {E : CborEnc} (hC : Reads C E) (n : WNode) (hp : Proper n) (ht : Top n)
    (hn : StateNode keccak 64 n) (hw : Mpt.WF (toTrie keccak n)) (is : List Instr) (his : is.map norm = emit n) (b : Bytes)
    (hb : EncList E is b) :
    ∃ F, parse C (1 :: b) = some is ∧ frontend keccak is = .ok F ∧
      World.new1 keccak F.state (Mpt.entries F.state []) F.storage = .ok ⟨toTrie keccak n, F.storage⟩ := by
  obtain ⟨F, h1, h2, -, h3⟩ := C27_frontend keccak n hp ht hn hw is his
  refine ⟨F, C60_parse_roundtrip hC hb ?_ 1 (.inr rfl), h1, C27_world keccak n hn F h2 h3⟩
  rintro rfl
  exact emit_ne ht his.symm

/-! ## Non-vacuity -/

def exHash : H256 := ⟨List.replicate 32 7, rfl⟩

/-- Storage with two slots and a hash. -/
def exStorage : WNode :=
  .ext [4] (.branch (fun i => if i = 0 then .value [1, 2] [9] else if i = 3 then .hash exHash else if i = 15 then .value [1] [200, 1] else .absent))

/-- Two accounts (one with storage and code, one with a code hash only) and a hash. -/
def exNode : WNode :=
  .branch (fun i => if i = 1 then .acct (List.replicate 63 2) 5 1000 exStorage (.code [1, 2, 3])
    else if i = 2 then .hash exHash else if i = 9 then .acct (List.replicate 63 8) 0 0 .absent (.hash exHash) else .absent)

/-- The stream of `exNode`; the second account leaves out nonce and balance. -/
def exStream : List Instr :=
  [.code [1, 2, 3], .leaf [1, 2] [9], .hash exHash, .leaf [1] [200, 1], .branch 0x8009, .ext [4],
    .acctLeaf (List.replicate 63 2) (some 5) (some 1000) true true, .hash exHash, .hash exHash,
    .acctLeaf (List.replicate 63 8) none none true false, .branch 0x206]

example (keccak : Bytes → H256) : Proper exNode ∧ Top exNode ∧ StateNode keccak 64 exNode ∧ Mpt.WF (toTrie keccak exNode) ∧
    exStream.map norm = emit exNode ∧ ∀ m, .branch m ∈ exStream → m < 2 ^ 64 := by
  have hsn : StorageNode 64 exStorage := by
    refine ⟨by decide, by decide, fun i => ?_⟩
    simp only []
    split
    · show 2 ≤ 62; decide
    · split
      · trivial
      · split
        · show 1 ≤ 62; decide
        · trivial
  have hwf : Mpt.WF (toTrie keccak exStorage) := by
    refine ⟨by decide, .inl rfl, rfl, fun i => ?_, 0, 3, by decide, rfl, rfl⟩
    simp only []
    split
    · trivial
    · split
      · trivial
      · split <;> trivial
  refine ⟨fun i => ?_, trivial, ⟨by decide, fun i => ?_⟩, ⟨rfl, fun i => ?_, 1, 2, by decide, rfl, rfl⟩, rfl, ?_⟩
  · simp only []
    split
    · refine .inr (.inr (fun j => ?_))
      simp only []
      split
      · exact .inr trivial
      · split
        · exact .inr trivial
        · split
          · exact .inr trivial
          · exact .inl rfl
    · split
      · exact .inr trivial
      · split
        · exact .inr (.inl rfl)
        · exact .inl rfl
  · simp only []
    split
    · exact ⟨by decide, hsn, hwf⟩
    · split
      · trivial
      · split
        · exact ⟨by decide, trivial, trivial⟩
        · trivial
  · simp only []
    split
    · trivial
    · split
      · trivial
      · split <;> trivial
  · intro m hm
    simp only [exStream, List.mem_cons, reduceCtorEq, Instr.branch.injEq, List.not_mem_nil, or_false, false_or] at hm
    rcases hm with rfl | rfl <;> decide

end Verif.Wire.Type1
