/-!
# Previous block hashes (`zero/src/rpc/mod.rs`) (C68)

The node's answers are parameters.
-/
namespace Verif.Zero.PrevHashes

section
variable {H : Type} (zero : H)

/-! ## Model: from blocks -/

/-- The numbers asked for: 257 from `t - 1 + t % 2` downwards, without the negative ones.
`zero/src/rpc/mod.rs:75-83`. -/
def numbers (t : Nat) : List Int :=
  ((List.range 257).map (fun i : Nat => (t : Int) - 1 + (t : Int) % 2 - (i : Int))).filter (fun i => decide (0 ≤ i))

/-- `chunks(2)` as (first, optional second). `zero/src/rpc/mod.rs:84-93`. -/
def pairs {α : Type} : List α → List (α × Option α)
  | [] => []
  | [a] => [(a, none)]
  | a :: b :: l => (a, some b) :: pairs l

/-- One request: the hashes of the block and of its parent. `node` answers with hash and parent hash.
`zero/src/rpc/mod.rs:99-114`. -/
def ask (node : Nat → Option (H × H)) (x : Int × Option Int) : Option (List (H × Option Int)) :=
  (node x.1.toNat).map (fun b => [(b.1, some x.1), (b.2, x.2)])

/-- One assignment to the array; `none` is a panic (overflow of the subtraction or index out of range).
`zero/src/rpc/mod.rs:125-133`. -/
def place (t : Nat) (a : Option (List H)) (x : H × Option Int) : Option (List H) :=
  match x.2 with
  | none => a
  | some n => a.bind (fun a =>
      if n.toNat ≤ t ∧ t - n.toNat ≤ 256 ∧ 256 - (t - n.toNat) < 256 then some (a.set (256 - (t - n.toNat)) x.1) else none)

/-- `fetch_previous_block_hashes_from_block`; `none` is an error or a panic. The answers are collected in the order of
the requests (`buffered`). `zero/src/rpc/mod.rs:60-136`. -/
def fromBlocks (node : Nat → Option (H × H)) (t : Nat) : Option (List H) :=
  ((pairs (numbers t)).mapM (ask node)).bind (fun l =>
    ((l.flatten.drop (t % 2)).take 256).foldl (place t) (some (List.replicate 256 zero)))

/-! ## Model: from the contract -/

/-- `chunks(32)` of the bytes, each a word. -/
def chunks32 (fuel : Nat) (l : List UInt8) : List (List UInt8) :=
  match fuel with
  | 0 => []
  | fuel + 1 => if l = [] then [] else l.take 32 :: chunks32 fuel (l.drop 32)

/-- `fetch_previous_block_hashes_smart_contract` after the call: split into words, drop the first, reverse; a last word
of other than 32 bytes and a number of words other than 256 are errors. `zero/src/rpc/mod.rs:162-171`. -/
def ofBytes (l : List UInt8) : Option (List (List UInt8)) :=
  let ws := ((chunks32 (l.length + 1) l).drop 1).reverse
  if (∀ w, w ∈ ws → w.length = 32) ∧ ws.length = 256 then some ws else none

/-- `fetch_previous_block_hashes`: the contract's answer unless it fails or is all zero.
`zero/src/rpc/mod.rs:174-199`. -/
def fetch [DecidableEq H] (contract : Nat → Option (List H)) (node : Nat → Option (H × H)) (t : Nat) : Option (List H) :=
  match contract t with
  | some a => if ∀ h, h ∈ a → h = zero then fromBlocks zero node t else some a
  | none => fromBlocks zero node t

/-! ## Specification -/

/-- The array the kernel expects: the hashes of the 256 blocks before `t`, the latest at the end, zero where there is
no block. -/
def Expected (hash : Nat → H) (t : Nat) (a : List H) : Prop :=
  a.length = 256 ∧ ∀ k, 1 ≤ k → k ≤ 256 → a[256 - k]? = some (if k ≤ t then hash (t - k) else zero)

/-- The node knows the chain up to block `t`. -/
def Knows (hash : Nat → H) (node : Nat → Option (H × H)) (t : Nat) : Prop :=
  ∀ n, n ≤ t → ∃ parent, node n = some (hash n, parent) ∧ (∀ m, n = m + 1 → parent = hash m)

/-! ## Proofs -/

/-- `n` numbers from `s` downwards. -/
def desc : Nat → Nat → List Int
  | _, 0 => []
  | s, n + 1 => (s : Int) :: desc (s - 1) n

theorem desc_eq : ∀ (n s : Nat), n ≤ s + 1 → desc s n = (List.range n).map (fun i => ((s - i : Nat) : Int))
  | 0, _, _ => rfl
  | n + 1, s, h => by
    rw [List.range_succ_eq_map, List.map_cons, List.map_map, desc, Nat.sub_zero]
    congr 1
    cases n with
    | zero => rfl
    | succ n =>
      rw [desc_eq (n + 1) (s - 1) (by omega)]
      apply List.map_congr_left
      intro i hi
      have := List.mem_range.1 hi
      simp only [Function.comp]
      omega

theorem filter_range (s : Int) (m n : Nat) (hs : -1 ≤ s) (hm : m = min n (s + 1).toNat) :
    ((List.range n).map (fun i : Nat => s - (i : Int))).filter (fun i => decide (0 ≤ i)) = (List.range m).map (fun i : Nat => s - (i : Int)) := by
  induction n generalizing m with
  | zero =>
    have : m = 0 := by omega
    subst this
    rfl
  | succ n ih =>
    rw [List.range_succ, List.map_append, List.filter_append, ih (min n (s + 1).toNat) rfl]
    by_cases h : (n : Int) ≤ s
    · have h1 : min n (s + 1).toNat = n := by omega
      have h2 : m = n + 1 := by omega
      rw [h1, h2, List.range_succ, List.map_append]
      congr 1
      rw [List.map_singleton, List.filter_cons, if_pos (by simp; omega), List.filter_nil]
    · have h1 : min n (s + 1).toNat = m := by omega
      rw [h1, List.map_singleton, List.filter_cons, if_neg (by simp; omega), List.filter_nil, List.append_nil]

theorem numbers_eq (t : Nat) : numbers t = desc (t + t % 2 - 1) (min 257 (t + t % 2)) := by
  unfold numbers
  rw [filter_range _ (min 257 (t + t % 2)) 257 (by omega) (by omega), desc_eq _ _ (by omega)]
  apply List.map_congr_left
  intro i hi
  have := List.mem_range.1 hi
  omega

variable {zero}

/-- The collected hashes: of all numbers asked for, perhaps followed by one that is not used. -/
theorem ask_desc {hash : Nat → H} {node : Nat → Option (H × H)} {t : Nat} (hk : Knows hash node t) : ∀ (n s : Nat), n ≤ s + 1 → s ≤ t →
    ∃ l tail, (pairs (desc s n)).mapM (ask node) = some l ∧
      l.flatten = (desc s n).map (fun i => (hash i.toNat, some i)) ++ tail ∧ ∀ x, x ∈ tail → x.2 = none
  | 0, _, _, _ => ⟨[], [], rfl, rfl, fun _ h => by cases h⟩
  | 1, s, _, hs => by
    obtain ⟨p, h1, _⟩ := hk s hs
    refine ⟨[[(hash s, some (s : Int)), (p, none)]], [(p, none)], ?_, by simp [desc], ?_⟩
    · simp [desc, pairs, ask, h1]
    · intro x hx
      rw [List.mem_singleton.1 hx]
  | n + 2, s, hn, hs => by
    obtain ⟨s, rfl⟩ : ∃ r, s = r + 1 := ⟨s - 1, by omega⟩
    obtain ⟨p, h1, h2⟩ := hk (s + 1) hs
    have hp := h2 s rfl
    subst hp
    by_cases hn0 : n = 0
    · subst hn0
      refine ⟨[[(hash (s + 1), some ((s + 1 : Nat) : Int)), (hash s, some (s : Int))]], [], ?_, ?_, fun _ h => by cases h⟩
      · simp only [desc, pairs, Nat.add_sub_cancel, List.mapM_cons, List.mapM_nil, ask, Int.toNat_natCast, h1]
        rfl
      · simp [desc]
    · obtain ⟨l, tail, e1, e2, e3⟩ := ask_desc hk n (s - 1) (by omega) (by omega)
      refine ⟨[(hash (s + 1), some ((s + 1 : Nat) : Int)), (hash s, some (s : Int))] :: l, tail, ?_, ?_, e3⟩
      · simp only [desc, pairs, Nat.add_sub_cancel, List.mapM_cons, ask, Int.toNat_natCast, h1, Option.map_some]
        rw [e1]
        rfl
      · rw [List.flatten_cons, e2]
        simp [desc]

theorem place_none {t : Nat} : ∀ {l : List (H × Option Int)} {a : Option (List H)}, (∀ x, x ∈ l → x.2 = none) → l.foldl (place t) a = a
  | [], _, _ => rfl
  | x :: l, a, h => by
    rw [List.foldl_cons]
    have : place t a x = a := by
      unfold place
      rw [h x (List.mem_cons_self ..)]
    rw [this]
    exact place_none (fun y hy => h y (List.mem_cons_of_mem _ hy))

theorem place_range {hash : Nat → H} {t : Nat} : ∀ j, j ≤ 256 → j ≤ t → ∃ a,
    ((List.range j).map (fun i => (hash (t - 1 - i), some ((t - 1 - i : Nat) : Int)))).foldl (place t) (some (List.replicate 256 zero)) = some a ∧
      a.length = 256 ∧ ∀ k, 1 ≤ k → k ≤ 256 → a[256 - k]? = some (if k ≤ j then hash (t - k) else zero)
  | 0, _, _ => by
    refine ⟨List.replicate 256 zero, rfl, List.length_replicate .., ?_⟩
    intro k h1 h2
    rw [List.getElem?_replicate, if_pos (by omega), if_neg (by omega)]
  | j + 1, hj, ht => by
    obtain ⟨a, e, hl, ha⟩ := place_range (hash := hash) (t := t) j (by omega) (by omega)
    refine ⟨a.set (256 - (j + 1)) (hash (t - (j + 1))), ?_, by rw [List.length_set, hl], ?_⟩
    · rw [List.range_succ, List.map_append, List.foldl_append, e, List.map_singleton, List.foldl_cons, List.foldl_nil]
      unfold place
      simp only [Int.toNat_natCast, Option.bind_some]
      rw [if_pos (by omega), show t - (t - 1 - j) = j + 1 by omega, show t - 1 - j = t - (j + 1) by omega]
    · intro k h1 h2
      by_cases h : k = j + 1
      · subst h
        rw [List.getElem?_set_self (by omega), if_pos (Nat.le_refl _)]
      · rw [List.getElem?_set_ne (by omega), ha k h1 h2]
        by_cases h' : k ≤ j
        · rw [if_pos h', if_pos (by omega)]
        · rw [if_neg h', if_neg (by omega)]

/-- **C68.** For every block number, if the node knows the chain, the array made from the blocks has the hashes of the
256 previous blocks at their places. -/
theorem C68_from_blocks {hash : Nat → H} {node : Nat → Option (H × H)} {t : Nat} (hk : Knows hash node t) :
    ∃ a, fromBlocks zero node t = some a ∧ Expected zero hash t a := by
  unfold fromBlocks
  rw [numbers_eq]
  obtain ⟨l, tail, e1, e2, e3⟩ := ask_desc hk (min 257 (t + t % 2)) (t + t % 2 - 1) (by omega) (by omega)
  rw [e1, Option.bind_some, e2, desc_eq _ _ (by omega), List.map_map]
  generalize hm : min 257 (t + t % 2) = m
  have hj : m - t % 2 = min (257 - t % 2) t := by omega
  have hlen : ((List.range m).map ((fun i => (hash i.toNat, some i)) ∘ fun i => ((t + t % 2 - 1 - i : Nat) : Int))).length = m := by simp
  have hdrop : ((List.range m).map ((fun i => (hash i.toNat, some i)) ∘ fun i => ((t + t % 2 - 1 - i : Nat) : Int))).drop (t % 2) =
      (List.range (m - t % 2)).map (fun i => (hash (t - 1 - i), some ((t - 1 - i : Nat) : Int))) := by
    apply List.ext_getElem
    · simp
    · intro i h1 h2
      simp only [List.getElem_drop, List.getElem_map, List.getElem_range, Function.comp, Int.toNat_natCast]
      rw [show t + t % 2 - 1 - (t % 2 + i) = t - 1 - i by omega]
  have h2 : t % 2 ≤ m := by omega
  rw [List.drop_append_of_le_length (by rw [hlen]; exact h2), hdrop, List.take_append, ← List.map_take, List.take_range,
    List.foldl_append]
  obtain ⟨a, ha, hl, hk'⟩ := place_range (zero := zero) (hash := hash) (t := t) (min 256 (m - t % 2)) (by omega) (by omega)
  rw [ha, place_none (fun x hx => e3 x (List.mem_of_mem_take hx))]
  refine ⟨a, rfl, hl, ?_⟩
  intro k h1 h3
  rw [hk' k h1 h3]
  by_cases h : k ≤ t
  · rw [if_pos h, if_pos (by omega)]
  · rw [if_neg h, if_neg (by omega)]

/-- **C68.** The same array comes out of either way: if the contract call fails, gives only zeros, or gives the
expected array, the result is the expected array. -/
theorem C68_fetch [DecidableEq H] {hash : Nat → H} {node : Nat → Option (H × H)} {contract : Nat → Option (List H)} {t : Nat}
    (hk : Knows hash node t) (hc : ∀ a, contract t = some a → (∀ h, h ∈ a → h = zero) ∨ Expected zero hash t a) :
    ∃ a, fetch zero contract node t = some a ∧ Expected zero hash t a := by
  unfold fetch
  split
  · rename_i a ha
    split
    · exact C68_from_blocks hk
    · rename_i hn
      rcases hc a ha with h | h
      · exact absurd h hn
      · exact ⟨a, rfl, h⟩
  · exact C68_from_blocks hk

end

/-! ## The contract

The call runs a small program on the node. Its instructions are modelled as in the Yellow Paper (gas, stack and memory
limits are not modelled). -/

/-- The code passed to `eth_call`. `zero/src/rpc/mod.rs:155`. -/
def code : List Nat :=
  [0x60, 0x00, 0x5B, 0x60, 0x01, 0x01, 0x80, 0x43, 0x03, 0x40, 0x81, 0x60, 0x20, 0x02, 0x52, 0x80, 0x61, 0x01, 0x01, 0x11,
   0x63, 0x00, 0x00, 0x00, 0x02, 0x57, 0x61, 0x20, 0x20, 0x5F, 0xF3]

/-- `2^256`. -/
abbrev W : Nat := 2 ^ 256

/-- The 32 bytes of a word, the most significant first. -/
def be32 (n : Nat) : List UInt8 := (List.range 32).map (fun i => UInt8.ofNat (n / 256 ^ (31 - i)))

/-- The state of an execution; `ret` is set when it has returned. -/
structure Evm where
  pc : Nat
  stack : List Nat
  mem : Nat → UInt8
  ret : Option (List UInt8)

/-- The value of immediate bytes. -/
def imm (l : List Nat) : Nat := l.foldl (fun a b => 256 * a + b) 0

/-- Storing a word in memory. -/
def mstore (m : Nat → UInt8) (off v : Nat) : Nat → UInt8 :=
  fun j => if off ≤ j ∧ j < off + 32 then (be32 v)[j - off]?.getD 0 else m j

/-- One instruction. `number` is the block number, `bh` the answer of `BLOCKHASH`. `none` is an exceptional halt. -/
def step (number : Nat) (bh : Nat → Nat) (s : Evm) : Option Evm :=
  if s.ret.isSome then some s else
  match code[s.pc]?, s.stack with
  | some 0x01, a :: b :: st => some { s with pc := s.pc + 1, stack := (a + b) % W :: st }
  | some 0x02, a :: b :: st => some { s with pc := s.pc + 1, stack := (a * b) % W :: st }
  | some 0x03, a :: b :: st => some { s with pc := s.pc + 1, stack := (a + W - b) % W :: st }
  | some 0x11, a :: b :: st => some { s with pc := s.pc + 1, stack := (if a > b then 1 else 0) :: st }
  | some 0x40, a :: st => some { s with pc := s.pc + 1, stack := bh a :: st }
  | some 0x43, st => some { s with pc := s.pc + 1, stack := number :: st }
  | some 0x52, a :: b :: st => some { s with pc := s.pc + 1, stack := st, mem := mstore s.mem a b }
  | some 0x57, a :: b :: st =>
    if b = 0 then some { s with pc := s.pc + 1, stack := st }
    else if code[a]? = some 0x5B then some { s with pc := a, stack := st } else none
  | some 0x5B, st => some { s with pc := s.pc + 1, stack := st }
  | some 0x5F, st => some { s with pc := s.pc + 1, stack := 0 :: st }
  | some 0x60, st => some { s with pc := s.pc + 2, stack := imm ((code.drop (s.pc + 1)).take 1) :: st }
  | some 0x61, st => some { s with pc := s.pc + 3, stack := imm ((code.drop (s.pc + 1)).take 2) :: st }
  | some 0x63, st => some { s with pc := s.pc + 5, stack := imm ((code.drop (s.pc + 1)).take 4) :: st }
  | some 0x80, a :: st => some { s with pc := s.pc + 1, stack := a :: a :: st }
  | some 0x81, a :: b :: st => some { s with pc := s.pc + 1, stack := b :: a :: b :: st }
  | some 0xF3, a :: b :: _ => some { s with ret := some ((List.range b).map (fun i => s.mem (a + i))) }
  | _, _ => none

/-- Several instructions. -/
def steps (number : Nat) (bh : Nat → Nat) : Nat → Evm → Option Evm
  | 0, s => some s
  | n + 1, s => (step number bh s).bind (steps number bh n)

/-- The call: 4116 steps from the empty state (more change nothing once it has returned). -/
def call (number : Nat) (bh : Nat → Nat) : Option (List UInt8) :=
  (steps number bh 4116 ⟨0, [], fun _ => 0, none⟩).bind (·.ret)

/-- The contract's answer as an array of hashes. -/
def contract (bh : Nat → Nat → Nat) (t : Nat) : Option (List (List UInt8)) := (call t (bh t)).bind ofBytes

/-- `BLOCKHASH` in block `number` of a chain: the hash of one of the 256 blocks before it, otherwise zero. -/
def blockhash (hash : Nat → Nat) (number n : Nat) : Nat := if n < number ∧ number ≤ n + 256 then hash n else 0

theorem steps_add (number : Nat) (bh : Nat → Nat) : ∀ (m n : Nat) (s : Evm), steps number bh (m + n) s = (steps number bh m s).bind (steps number bh n)
  | 0, n, s => by rw [Nat.zero_add]; rfl
  | m + 1, n, s => by
    rw [Nat.add_right_comm, steps, steps]
    cases h : step number bh s with
    | none => rfl
    | some s' => rw [Option.bind_some, Option.bind_some, steps_add number bh m n s']

theorem one_round {number : Nat} {bh : Nat → Nat} {k : Nat} (hk : k < 257) (m : Nat → UInt8) :
    steps number bh 16 ⟨2, [k], m, none⟩ =
      some ⟨if k + 1 < 257 then 2 else 26, [k + 1], mstore m (32 * (k + 1)) (bh ((number + W - (k + 1)) % W)), none⟩ := by
  have e1 : (1 + k) % W = k + 1 := by
    rw [Nat.mod_eq_of_lt (by unfold W; omega)]; omega
  have e2 : (32 * (k + 1)) % W = 32 * (k + 1) := Nat.mod_eq_of_lt (by unfold W; omega)
  have a : steps number bh 3 ⟨2, [k], m, none⟩ = some ⟨6, [(1 + k) % W], m, none⟩ := rfl
  have b : ∀ k', steps number bh 7 ⟨6, [k'], m, none⟩ = some ⟨14, [(32 * k') % W, bh ((number + W - k') % W), k'], m, none⟩ := fun _ => rfl
  have c : ∀ k' o v, steps number bh 5 ⟨14, [o, v, k'], m, none⟩ = some ⟨25, [2, if 257 > k' then 1 else 0, k'], mstore m o v, none⟩ :=
    fun _ _ _ => rfl
  have d : ∀ k' (m' : Nat → UInt8), steps number bh 1 ⟨25, [2, 1, k'], m', none⟩ = some ⟨2, [k'], m', none⟩ := fun _ _ => rfl
  have e : ∀ k' (m' : Nat → UInt8), steps number bh 1 ⟨25, [2, 0, k'], m', none⟩ = some ⟨26, [k'], m', none⟩ := fun _ _ => rfl
  rw [steps_add number bh 3 13, a, Option.bind_some, e1, steps_add number bh 7 6, b, Option.bind_some, e2, steps_add number bh 5 1, c,
    Option.bind_some]
  by_cases h : k + 1 < 257
  · rw [if_pos h, if_pos h, d]
  · rw [if_neg h, if_neg h, e]

/-- The memory after `k` rounds. -/
def memAfter (number : Nat) (bh : Nat → Nat) : Nat → Nat → UInt8
  | 0 => fun _ => 0
  | k + 1 => mstore (memAfter number bh k) (32 * (k + 1)) (bh ((number + W - (k + 1)) % W))

theorem rounds {number : Nat} {bh : Nat → Nat} : ∀ k, k < 257 →
    steps number bh (1 + 16 * k) ⟨0, [], fun _ => 0, none⟩ = some ⟨2, [k], memAfter number bh k, none⟩
  | 0, _ => rfl
  | k + 1, h => by
    rw [show 1 + 16 * (k + 1) = (1 + 16 * k) + 16 by omega, steps_add, rounds k (by omega), Option.bind_some, one_round (by omega),
      if_pos h]
    rfl

theorem call_eq (number : Nat) (bh : Nat → Nat) :
    call number bh = some ((List.range 8224).map (fun i => memAfter number bh 257 (0 + i))) := by
  unfold call
  rw [show 4116 = (1 + 16 * 256) + (16 + 3) by rfl, steps_add, rounds 256 (by omega), Option.bind_some, steps_add, one_round (by omega),
    Option.bind_some, if_neg (by omega)]
  rfl

theorem be32_length (n : Nat) : (be32 n).length = 32 := by simp [be32]

theorem mem_get {number : Nat} {bh : Nat → Nat} : ∀ (k i j : Nat), j < 32 → memAfter number bh k (32 * i + j) =
    if 1 ≤ i ∧ i ≤ k then (be32 (bh ((number + W - i) % W)))[j]?.getD 0 else 0
  | 0, i, j, hj => by
    rw [if_neg (by omega)]
    rfl
  | k + 1, i, j, hj => by
    unfold memAfter mstore
    by_cases h : i = k + 1
    · subst h
      rw [if_pos (by omega), if_pos (by omega), show 32 * (k + 1) + j - 32 * (k + 1) = j by omega]
    · rw [if_neg (by omega), mem_get k i j hj]
      by_cases h' : 1 ≤ i ∧ i ≤ k
      · rw [if_pos h', if_pos (by omega)]
      · rw [if_neg h', if_neg (by omega)]

theorem be32_zero : be32 0 = List.replicate 32 0 := by decide

/-- The words returned. -/
def word (number : Nat) (bh : Nat → Nat) (i : Nat) : List UInt8 := if i = 0 then be32 0 else be32 (bh ((number + W - i) % W))

theorem range_split (f : Nat → UInt8) (w : Nat → List UInt8) : ∀ n, (∀ i, i < n → (w i).length = 32 ∧ ∀ j, j < 32 → f (32 * i + j) = (w i)[j]?.getD 0) →
    (List.range (32 * n)).map f = ((List.range n).map w).flatten
  | 0, _ => rfl
  | n + 1, h => by
    rw [show 32 * (n + 1) = 32 * n + 32 by omega, List.range_add, List.map_append, range_split f w n (fun i hi => h i (by omega)),
      List.range_succ (n := n), List.map_append, List.flatten_append]
    congr 1
    simp only [List.map_singleton, List.flatten_singleton, List.map_map]
    obtain ⟨h1, h2⟩ := h n (by omega)
    apply List.ext_getElem
    · simp [h1]
    · intro j hj1 hj2
      simp only [List.getElem_map, List.getElem_range, Function.comp]
      rw [h2 j (by omega), List.getElem?_eq_getElem hj2, Option.getD_some]

theorem call_words (number : Nat) (bh : Nat → Nat) : call number bh = some ((List.range 257).map (word number bh)).flatten := by
  rw [call_eq]
  refine congrArg some (range_split (fun i => memAfter number bh 257 (0 + i)) (word number bh) 257 ?_)
  intro i hi
  unfold word
  by_cases h : i = 0
  · rw [if_pos h]
    refine ⟨be32_length _, fun j hj => ?_⟩
    rw [Nat.zero_add, mem_get _ _ _ hj, if_neg (by omega), be32_zero, List.getElem?_replicate, if_pos hj]
    rfl
  · rw [if_neg h]
    refine ⟨be32_length _, fun j hj => ?_⟩
    rw [Nat.zero_add, mem_get _ _ _ hj, if_pos (by omega)]

theorem chunks_words : ∀ (ws : List (List UInt8)) (fuel : Nat), (∀ w, w ∈ ws → w.length = 32) → ws.length < fuel → chunks32 fuel ws.flatten = ws
  | [], fuel + 1, _, _ => rfl
  | w :: ws, fuel + 1, h, hf => by
    have hw := h w (List.mem_cons_self ..)
    rw [chunks32, List.flatten_cons, if_neg (by intro e; rw [List.append_eq_nil_iff] at e; rw [e.1] at hw; cases hw),
      List.take_left' hw, List.drop_left' hw, chunks_words ws fuel (fun x hx => h x (List.mem_cons_of_mem _ hx)) (by simpa using hf)]

theorem flatten_length : ∀ (ws : List (List UInt8)), (∀ w, w ∈ ws → w.length = 32) → ws.flatten.length = 32 * ws.length
  | [], _ => rfl
  | w :: ws, h => by
    rw [List.flatten_cons, List.length_append, h w (List.mem_cons_self ..), flatten_length ws (fun x hx => h x (List.mem_cons_of_mem _ hx)),
      List.length_cons]
    omega

/-- **C68.** The contract, run in block `t` (a `u64`), gives the expected array. -/
theorem C68_contract (hash : Nat → Nat) {t : Nat} (ht : t < 2 ^ 64) :
    ∃ a, contract (blockhash hash) t = some a ∧ Expected (be32 0) (fun n => be32 (hash n)) t a := by
  have hw : ∀ w, w ∈ (List.range 257).map (word t (blockhash hash t)) → w.length = 32 := by
    intro w hw
    obtain ⟨i, _, rfl⟩ := List.mem_map.1 hw
    unfold word
    split <;> exact be32_length _
  refine ⟨(((List.range 257).map (word t (blockhash hash t))).drop 1).reverse, ?_, ?_, ?_⟩
  · unfold contract
    rw [call_words, Option.bind_some]
    unfold ofBytes
    simp only
    rw [chunks_words _ _ hw (by rw [flatten_length _ hw]; simp)]
    rw [if_pos]
    refine ⟨fun w h => hw w (List.mem_of_mem_drop (List.mem_reverse.1 h)), by simp⟩
  · simp
  · intro k h1 h2
    rw [List.getElem?_reverse (by simp; omega), List.getElem?_drop, List.length_drop, List.length_map, List.length_range,
      List.getElem?_map, List.getElem?_range (by omega), Option.map_some]
    congr 1
    rw [show 1 + (257 - 1 - 1 - (256 - k)) = k by omega]
    unfold word
    rw [if_neg (by omega)]
    unfold blockhash
    have hW : 2 ^ 64 + 300 < W := by decide
    by_cases h : k ≤ t
    · have : (t + W - k) % W = t - k := by
        rw [show t + W - k = (t - k) + W by omega, Nat.add_mod_right, Nat.mod_eq_of_lt (by omega)]
      rw [this, if_pos (by omega), if_pos h]
    · have : (t + W - k) % W = t + W - k := Nat.mod_eq_of_lt (by omega)
      rw [this, if_neg (by omega), if_neg h]

/-- **C68.** On a node that knows the chain and runs the call in the target block, the result is the expected array. -/
theorem C68_previous_hashes (hash : Nat → Nat) {node : Nat → Option (List UInt8 × List UInt8)} {t : Nat} (ht : t < 2 ^ 64)
    (hk : Knows (fun n => be32 (hash n)) node t) :
    ∃ a, fetch (be32 0) (contract (blockhash hash)) node t = some a ∧ Expected (be32 0) (fun n => be32 (hash n)) t a := by
  obtain ⟨a, ha, he⟩ := C68_contract hash ht
  refine C68_fetch hk (fun b hb => .inr ?_)
  rw [ha] at hb
  cases hb
  exact he

/-- A chain known to its node. -/
example : Knows (fun n => be32 (n + 5)) (fun n => some (be32 (n + 5), be32 (n + 4))) 1000 := by
  intro n _
  exact ⟨_, rfl, fun m e => by subst e; rfl⟩

end Verif.Zero.PrevHashes
