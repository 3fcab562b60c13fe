import Verif.Kasm.MemSys
import Verif.Kasm.CopyClaims

/-! Property C113: the EVM's instructions on memory. -/

namespace Verif.Kasm

/-! ### What the instructions do (Yellow Paper, appendix H) -/

/-- The memory, the inputs and the code of a running call. Memory has `words` words of 32 bytes. -/
structure View where
  words : Nat
  bytes : Nat → Nat
  calldata : List Nat
  returndata : List Nat
  code : List Nat

/-- The instructions, with their operands in the order of the stack. -/
inductive MemOp where
  | mload (off : Nat)
  | mstore (off v : Nat)
  | mstore8 (off v : Nat)
  | msize
  | calldataload (i : Nat)
  | calldatacopy (d r n : Nat)
  | returndatacopy (d r n : Nat)
  | codecopy (d r n : Nat)
  | mcopy (d r n : Nat)

namespace MemOp

def operands : MemOp → List Nat
  | .mload off => [off]
  | .mstore off v => [off, v]
  | .mstore8 off v => [off, v]
  | .msize => []
  | .calldataload i => [i]
  | .calldatacopy d r n => [d, r, n]
  | .returndatacopy d r n => [d, r, n]
  | .codecopy d r n => [d, r, n]
  | .mcopy d r n => [d, r, n]

/-- The kernel's entry point (`asm/core/syscall.asm`, the jump table). -/
def entry : MemOp → String
  | .mload _ => "sys_mload"
  | .mstore _ _ => "sys_mstore"
  | .mstore8 _ _ => "sys_mstore8"
  | .msize => "sys_msize"
  | .calldataload _ => "sys_calldataload"
  | .calldatacopy _ _ _ => "sys_calldatacopy"
  | .returndatacopy _ _ _ => "sys_returndatacopy"
  | .codecopy _ _ _ => "sys_codecopy"
  | .mcopy _ _ _ => "sys_mcopy"

/-- The end of the memory that is read or written: a copy of nothing touches nothing. -/
def touched : MemOp → Nat
  | .mload off => off + 32
  | .mstore off _ => off + 32
  | .mstore8 off _ => off + 1
  | .msize => 0
  | .calldataload _ => 0
  | .calldatacopy d _ n => if n = 0 then 0 else d + n
  | .returndatacopy d _ n => if n = 0 then 0 else d + n
  | .codecopy d _ n => if n = 0 then 0 else d + n
  | .mcopy d r n => if n = 0 then 0 else max d r + n

/-- The price without that of new memory. -/
def basic : MemOp → Nat
  | .mload _ => 3
  | .mstore _ _ => 3
  | .mstore8 _ _ => 3
  | .msize => 2
  | .calldataload _ => 3
  | .calldatacopy _ _ n => 3 + 3 * ((n + 31) / 32)
  | .returndatacopy _ _ n => 3 + 3 * ((n + 31) / 32)
  | .codecopy _ _ n => 3 + 3 * ((n + 31) / 32)
  | .mcopy _ _ n => 3 + 3 * ((n + 31) / 32)

/-- The words of memory afterwards. -/
def words (u : View) (op : MemOp) : Nat := max u.words ((op.touched + 31) / 32)

/-- `Cmem` of the Yellow Paper. -/
def price (x : Nat) : Nat := 3 * x + x * x / 512

def gas (u : View) (op : MemOp) : Nat := op.basic + (price (op.words u) - price u.words)

/-- Only RETURNDATACOPY refuses to read beyond the end. -/
def Allowed (u : View) : MemOp → Prop
  | .returndatacopy _ r n => r + n ≤ u.returndata.length
  | _ => True

/-- The bytes `src` at `d`. -/
def write (f : Nat → Nat) (d n : Nat) (src : Nat → Nat) (j : Nat) : Nat :=
  if d ≤ j ∧ j < d + n then src (j - d) else f j

/-- The memory afterwards. Beyond the end of the call data and of the code there are zeros. -/
def bytes (u : View) : MemOp → Nat → Nat
  | .mload _ => u.bytes
  | .mstore off v => write u.bytes off 32 fun i => v / 256 ^ (31 - i) % 256
  | .mstore8 off v => write u.bytes off 1 fun _ => v % 256
  | .msize => u.bytes
  | .calldataload _ => u.bytes
  | .calldatacopy d r n => write u.bytes d n fun i => u.calldata.getD (r + i) 0
  | .returndatacopy d r n => write u.bytes d n fun i => u.returndata.getD (r + i) 0
  | .codecopy d r n => write u.bytes d n fun i => u.code.getD (r + i) 0
  | .mcopy d r n => write u.bytes d n fun i => u.bytes (r + i)

def after (u : View) (op : MemOp) : View := { u with words := op.words u, bytes := op.bytes u }

/-- What is pushed. -/
def Pushed (u : View) (s s' : List Nat) : MemOp → Prop
  | .mload off => ∃ v, s' = v :: s ∧ IsWord v fun i => u.bytes (off + i)
  | .msize => s' = (32 * u.words) :: s
  | .calldataload i => ∃ v, s' = v :: s ∧ IsWord v fun j => u.calldata.getD (i + j) 0
  | _ => s' = s

end MemOp

/-! ### Where the kernel keeps it -/

/-- These bytes are at the start of a segment of the call, and their number is in a field of its context. -/
structure HoldsBytes (w : World) (size seg : Nat) (l : List Nat) : Prop where
  size : w.mem (w.ctx * 2 ^ 64 + size) = l.length
  short : l.length < 2 ^ 31
  cell : ∀ i < l.length, w.mem (w.ctx * 2 ^ 64 + seg + i) = l.getD i 0
  byte : ∀ i, l.getD i 0 < 256

/-- The call, as the kernel holds it, and the gas used so far. New memory is zero. The gas limit is below
`2 ^ 32`, as that of a block is (`get_challenges.rs:60`), and the memory in use has been paid for. -/
structure Shows (w : World) (u : View) (used : Nat) : Prop where
  ctx : w.ctx < 2 ^ 32
  words : w.mem (w.ctx * 2 ^ 64 + 0x60000000a) = u.words
  bytes : ∀ j < 2 ^ 32, w.mem (w.ctx * 2 ^ 64 + 0x200000000 + j) = u.bytes j
  byte : ∀ j, u.bytes j < 256
  fresh : ∀ j, 32 * u.words ≤ j → u.bytes j = 0
  calldata : HoldsBytes w 0x600000002 0x300000000 u.calldata
  padding : ∀ i < 2 ^ 32, u.calldata.length ≤ i → w.mem (w.ctx * 2 ^ 64 + 0x300000000 + i) = 0
  returndata : HoldsBytes w 0x600000003 0x400000000 u.returndata
  code : HoldsBytes w 0x600000005 0 u.code
  limit : w.gasLimit ≤ 2 ^ 32
  gas : used ≤ w.gasLimit
  paid : MemOp.price u.words ≤ used

/-- Nothing but the memory of the call has changed. -/
def OnlyMemory (w w' : World) : Prop :=
  w'.ctx = w.ctx ∧ w'.inp = w.inp ∧ ∀ a, a ≠ w.ctx * 2 ^ 64 + 0x60000000a →
    ¬ (w.ctx * 2 ^ 64 + 0x200000000 ≤ a ∧ a < w.ctx * 2 ^ 64 + 0x200000000 + 2 ^ 32) → w'.mem a = w.mem a

variable {P : Prog} {s : List Nat} {w : World} {u : View} {k g n : Nat} {op : MemOp}

theorem Shows.metered (h : Shows w u (k / 2 ^ 192)) : Metered w k :=
  ⟨h.ctx, h.gas, h.limit, by rw [show w.memWords = u.words from h.words]; exact h.paid⟩

theorem MemAfter.only {m : Nat} {f : Nat → Nat} {w' : World} (h : MemAfter w w' m f) : OnlyMemory w w' :=
  ⟨h.1, h.2.1, h.2.2.2.2⟩

theorem OnlyMemory.cell {w' : World} (h : OnlyMemory w w') {f : Nat} (hf : f ≠ 0x60000000a)
    (hf' : f < 0x200000000 ∨ 0x300000000 ≤ f) : w'.mem (w'.ctx * 2 ^ 64 + f) = w.mem (w.ctx * 2 ^ 64 + f) := by
  rw [h.1]
  exact h.2.2 _ (by omega) (by omega)

theorem OnlyMemory.holds {w' : World} (h : OnlyMemory w w') {size seg : Nat} {l : List Nat} (hl : HoldsBytes w size seg l)
    (h1 : 0x600000000 ≤ size ∧ size ≠ 0x60000000a) (h2 : seg = 0 ∨ 0x300000000 ≤ seg ∧ seg ≤ 0x400000000) :
    HoldsBytes w' size seg l := by
  have hs := hl.short
  refine ⟨?_, hl.short, fun i hi => ?_, hl.byte⟩
  · rw [h.cell h1.2 (by omega)]; exact hl.size
  · rw [Nat.add_assoc, h.cell (by omega) (by omega), ← Nat.add_assoc]; exact hl.cell i hi

/-- The kernel's state after an instruction. -/
theorem Shows.after {w' : World} {used : Nat} {f : Nat → Nat} (h : Shows w u used) (hM : MemAfter w w' (op.words u) f)
    (hf : ∀ j < 2 ^ 32, f j = op.bytes u j) (hg : used + op.gas u ≤ w.gasLimit) :
    Shows w' (op.after u) (used + op.gas u) ∧ OnlyMemory w w' := by
  have hO := hM.only
  have hl : w'.gasLimit = w.gasLimit := hO.cell (f := 0x60000000c) (by omega) (by omega)
  refine ⟨⟨by rw [hO.1]; exact h.ctx, hM.2.2.1, fun j hj => (hM.2.2.2.1 j hj).trans (hf j hj), ?_, ?_,
    hO.holds h.calldata (by omega) (by omega), fun i hi hi' => ?_, hO.holds h.returndata (by omega) (by omega),
    hO.holds h.code (by omega) (by omega), by rw [hl]; exact h.limit, by rw [hl]; exact hg, ?_⟩, hO⟩
  · intro j
    show op.bytes u j < 256
    have hb := h.byte
    have h1 := h.calldata.byte
    have h2 := h.returndata.byte
    have h3 := h.code.byte
    cases op <;> simp only [MemOp.bytes, MemOp.write]
    case mload | msize | calldataload => exact hb j
    all_goals
      split
      · first | exact Nat.mod_lt _ (by decide) | exact h1 _ | exact h2 _ | exact h3 _ | exact hb _
      · exact hb j
  · intro j hj
    have hj : 32 * max u.words ((op.touched + 31) / 32) ≤ j := hj
    show op.bytes u j = 0
    have hz := h.fresh j (by omega)
    have ht : op.touched ≤ j := by omega
    clear hM hf hg hj
    cases op <;> simp only [MemOp.bytes, MemOp.write, MemOp.touched] at ht ⊢
    case mload | msize | calldataload => exact hz
    case mstore | mstore8 => rw [if_neg (by omega)]; exact hz
    all_goals
      rename_i d r n
      by_cases hn : n = 0
      · rw [if_neg (by omega)]; exact hz
      · rw [if_neg hn] at ht
        rw [if_neg (by omega)]; exact hz
  · rw [Nat.add_assoc, hO.cell (by omega) (by omega), ← Nat.add_assoc]; exact h.padding i hi hi'
  · show MemOp.price (op.words u) ≤ _
    have := h.paid
    simp only [MemOp.gas]
    omega

theorem Served.imp {o : Out} {gas gas' : Nat} {ok ok' : Prop} {Q Q' : List Nat → World → Prop}
    (h : Served P o w k gas ok Q) (hg : gas' = gas) (hok : ok' ↔ ok)
    (hQ : k / 2 ^ 192 + gas ≤ w.gasLimit → ok → ∀ s' w', Q s' w' → Q' s' w') : Served P o w k gas' ok' Q' := by
  subst hg
  rw [show ok' = ok from propext hok]
  refine ⟨fun hk => ?_, h.2⟩
  obtain ⟨s', w', h1, h2⟩ := h.1 hk
  exact ⟨s', w', h1, hQ hk.1 hk.2 _ _ h2⟩

/-- What can be paid is in reach. -/
theorem Shows.reach (h : Shows w u (k / 2 ^ 192)) (hg : k / 2 ^ 192 + op.gas u ≤ w.gasLimit) : op.touched ≤ 2 ^ 31 := by
  by_cases hb : op.touched ≤ 2 ^ 31
  · exact hb
  · exfalso
    have h1 := memCost_big (x := op.words u) (by simp only [MemOp.words]; omega)
    have h2 : MemOp.price (op.words u) = memCost (op.words u) := rfl
    have h3 := h.paid
    have h4 := h.limit
    simp only [MemOp.gas] at hg
    omega

theorem words_copy {e : Nat} : ((if n = 0 then 0 else e) + 31) / 32 = if n = 0 then 0 else wordsFor e := by
  split <;> simp [wordsFor]

theorem growth_copy {e : Nat} (hw : w.memWords = u.words) :
    MemOp.price (max u.words (((if n = 0 then 0 else e) + 31) / 32)) - MemOp.price u.words =
      if n = 0 then 0 else w.growth (wordsFor e) := by
  rw [words_copy, ← hw]
  split
  · rw [Nat.max_eq_left (Nat.zero_le _)]; omega
  · rfl

/-- C113. For any memory, call data, return data and code, any operands and any gas: the kernel's system call for
MLOAD, MSTORE, MSTORE8, MSIZE, CALLDATALOAD, CALLDATACOPY, RETURNDATACOPY, CODECOPY and MCOPY returns to the user with
what the instruction pushes and the memory it leaves, having charged its price with that of the new memory, and
nothing else has changed; it ends in a fault exactly if the gas does not suffice, or if RETURNDATACOPY would read
beyond the end. -/
theorem C113_memory_instructions (hP : P.Has memSysCode) (hC : P.Copies) (h : Shows w u (k / 2 ^ 192))
    (ha : ∀ x ∈ op.operands, x < 2 ^ 256) :
    Served P (.goto (P.addr op.entry) (k :: (op.operands ++ s)) w) w k (op.gas u) (op.Allowed u) fun s' w' =>
      op.Pushed u s s' ∧ Shows w' (op.after u) ((k + op.gas u * 2 ^ 192) / 2 ^ 192) ∧ OnlyMemory w w' := by
  have hm := h.metered
  have hw : w.memWords = u.words := h.words
  have hk : (k + op.gas u * 2 ^ 192) / 2 ^ 192 = k / 2 ^ 192 + op.gas u := by omega
  have hb : ∀ j < 2 ^ 32, w.memByte j = u.bytes j := h.bytes
  have hb' : ∀ j < 2 ^ 32, w.memByte j < 256 := fun j hj => by rw [hb j hj]; exact h.byte j
  have hall : ∀ j < 2 ^ 32, w.mem (w.ctx * 2 ^ 64 + 0x300000000 + j) = u.calldata.getD j 0 := fun j hj => by
    by_cases hl : j < u.calldata.length
    · exact h.calldata.cell j hl
    · rw [h.padding j hj (by omega)]; simp [List.getD, List.getElem?_eq_none (Nat.le_of_not_lt hl)]
  have hreach := fun hg => h.reach (op := op) hg
  rw [hk]
  cases op with
  | mload off =>
    refine (run_mload (s := s) hP hm (ha off (by simp [MemOp.operands])) hb').imp (by rw [World.growth, hw]; rfl) (Iff.rfl) ?_
    rintro hg - s' w' ⟨⟨v, rfl, hv⟩, hM⟩
    rw [World.growth, hw] at hg
    have ht : off + 32 ≤ 2 ^ 31 := hreach hg
    refine ⟨⟨v, rfl, hv.1, fun i hi => (hv.2 i hi).trans (hb _ (by omega))⟩, h.after (f := w.memByte) (by rw [hw] at hM; exact hM) hb hg⟩
  | mstore off v =>
    refine (run_mstore (s := s) hP hm (ha off (by simp [MemOp.operands]))).imp (by rw [World.growth, hw]; rfl) (Iff.rfl) ?_
    rintro hg - s' w' ⟨rfl, hM⟩
    rw [World.growth, hw] at hg
    rw [hw] at hM
    refine ⟨rfl, h.after hM (fun j hj => ?_) hg⟩
    simp only [MemOp.bytes, MemOp.write, hb j hj]
  | mstore8 off v =>
    refine (run_mstore8 (s := s) hP hm (ha off (by simp [MemOp.operands]))).imp (by rw [World.growth, hw]; rfl) (Iff.rfl) ?_
    rintro hg - s' w' ⟨rfl, hM⟩
    rw [World.growth, hw] at hg
    rw [hw] at hM
    refine ⟨rfl, h.after hM (fun j hj => ?_) hg⟩
    simp only [MemOp.bytes, MemOp.write, hb j hj]
  | msize =>
    have hgas : MemOp.gas u .msize = 2 := by
      simp only [MemOp.gas, MemOp.words, MemOp.touched, MemOp.basic]
      rw [Nat.max_eq_left (by omega)]; omega
    refine (run_msize (s := s) hP hm).imp hgas (Iff.rfl) ?_
    rintro hg - s' w' ⟨rfl, rfl⟩
    refine ⟨by rw [hw]; rfl, h.after (f := w'.memByte) ⟨rfl, rfl, ?_, fun _ _ => rfl, fun _ _ _ => rfl⟩ hb (by omega)⟩
    rw [hw]; simp only [MemOp.words, MemOp.touched]; omega
  | calldataload i =>
    have hgas : MemOp.gas u (.calldataload i) = 3 := by
      simp only [MemOp.gas, MemOp.words, MemOp.touched, MemOp.basic]
      rw [Nat.max_eq_left (by omega)]; omega
    have hs := h.calldata.short
    refine (run_calldataload (s := s) (i := i) hP hm (by rw [h.calldata.size]; exact hs)
      (fun j hj => by rw [hall j hj]; exact h.calldata.byte j)).imp hgas (Iff.rfl) ?_
    rintro hg - s' w' ⟨⟨v, rfl, hv⟩, rfl⟩
    refine ⟨⟨v, rfl, hv.1, fun j hj => (hv.2 j hj).trans ?_⟩, h.after (f := w'.memByte) ⟨rfl, rfl, ?_, fun _ _ => rfl, fun _ _ _ => rfl⟩ hb (by omega)⟩
    · simp only [h.calldata.size]
      by_cases hi : i ≤ u.calldata.length
      · rw [if_pos hi, hall _ (by omega)]
      · rw [if_neg hi]; simp [List.getD, List.getElem?_eq_none (show u.calldata.length ≤ i + j by omega)]
    · rw [hw]; simp only [MemOp.words, MemOp.touched]; omega
  | calldatacopy d r n =>
    have hd : d < 2 ^ 256 := ha d (by simp [MemOp.operands])
    have hr : r < 2 ^ 256 := ha r (by simp [MemOp.operands])
    have hn : n < 2 ^ 256 := ha n (by simp [MemOp.operands])
    have hgas : MemOp.gas u (.calldatacopy d r n) = 3 + 3 * wordsFor n + if n = 0 then 0 else w.growth (wordsFor (d + n)) := by
      rw [← growth_copy hw]; rfl
    have hwords : MemOp.words u (.calldatacopy d r n) = max w.memWords (if n = 0 then 0 else wordsFor (d + n)) := by
      rw [← words_copy, hw]; rfl
    refine (run_calldatacopy (s := s) (r := r) (n := n) hP hC hm hd hn
      (by rw [h.calldata.size]; exact h.calldata.short) (fun j hj => by rw [hall j hj]; exact h.calldata.byte j)).imp hgas Iff.rfl ?_
    rintro hg - s' w' ⟨rfl, hM⟩
    rw [← hgas] at hg
    rw [← hwords] at hM
    have ht := hreach hg
    refine ⟨rfl, h.after hM (fun j hj => ?_) hg⟩
    simp only [MemOp.bytes, MemOp.write, hb j hj, MemOp.touched] at ht ⊢
    by_cases hj2 : d ≤ j ∧ j < d + n
    · rw [if_pos hj2, if_pos hj2, h.calldata.size]
      rw [if_neg (by omega)] at ht
      have hs := h.calldata.short
      by_cases hrl : r ≤ u.calldata.length
      · rw [if_pos hrl, hall _ (by omega)]
      · rw [if_neg hrl]
        simp [List.getD, List.getElem?_eq_none (show u.calldata.length ≤ r + (j - d) by omega)]
    · rw [if_neg hj2, if_neg hj2]
  | returndatacopy d r n =>
    have hd : d < 2 ^ 256 := ha d (by simp [MemOp.operands])
    have hr : r < 2 ^ 256 := ha r (by simp [MemOp.operands])
    have hn : n < 2 ^ 256 := ha n (by simp [MemOp.operands])
    have hgas : MemOp.gas u (.returndatacopy d r n) = 3 + 3 * wordsFor n + if n = 0 then 0 else w.growth (wordsFor (d + n)) := by
      rw [← growth_copy hw]; rfl
    have hwords : MemOp.words u (.returndatacopy d r n) = max w.memWords (if n = 0 then 0 else wordsFor (d + n)) := by
      rw [← words_copy, hw]; rfl
    refine (run_returndatacopy (s := s) (r := r) (n := n) hP hC hm hd hr hn
      (by rw [h.returndata.size]; exact h.returndata.short) (fun j hj => by
        rw [h.returndata.size] at hj; rw [h.returndata.cell j hj]; exact h.returndata.byte j)).imp hgas (by rw [h.returndata.size]; exact Iff.rfl) ?_
    rintro hg hok s' w' ⟨rfl, hM⟩
    rw [← hgas] at hg
    rw [← hwords] at hM
    have ht := hreach hg
    refine ⟨rfl, h.after hM (fun j hj => ?_) hg⟩
    simp only [MemOp.bytes, MemOp.write, hb j hj, MemOp.touched] at ht ⊢
    rw [h.returndata.size] at hok
    by_cases hj2 : d ≤ j ∧ j < d + n
    · rw [if_pos hj2, if_pos hj2, h.returndata.cell _ (by omega)]
    · rw [if_neg hj2, if_neg hj2]
  | codecopy d r n =>
    have hd : d < 2 ^ 256 := ha d (by simp [MemOp.operands])
    have hr : r < 2 ^ 256 := ha r (by simp [MemOp.operands])
    have hn : n < 2 ^ 256 := ha n (by simp [MemOp.operands])
    have hgas : MemOp.gas u (.codecopy d r n) = 3 + 3 * wordsFor n + if n = 0 then 0 else w.growth (wordsFor (d + n)) := by
      rw [← growth_copy hw]; rfl
    have hwords : MemOp.words u (.codecopy d r n) = max w.memWords (if n = 0 then 0 else wordsFor (d + n)) := by
      rw [← words_copy, hw]; rfl
    refine (run_codecopy (s := s) (r := r) (n := n) hP hC hm hd hr hn
      (by rw [h.code.size]; exact h.code.short) (fun j hj => by
        rw [h.code.size] at hj; have := h.code.cell j hj; rw [Nat.add_zero] at this; rw [this]; exact h.code.byte j)).imp hgas Iff.rfl ?_
    rintro hg - s' w' ⟨rfl, hM⟩
    rw [← hgas] at hg
    rw [← hwords] at hM
    have ht := hreach hg
    refine ⟨rfl, h.after hM (fun j hj => ?_) hg⟩
    simp only [MemOp.bytes, MemOp.write, hb j hj, MemOp.touched] at ht ⊢
    by_cases hj2 : d ≤ j ∧ j < d + n
    · rw [if_pos hj2, if_pos hj2, h.code.size]
      by_cases hrl : r + (j - d) < u.code.length
      · have := h.code.cell _ hrl
        rw [Nat.add_zero] at this
        rw [if_pos hrl, this]
      · rw [if_neg hrl]
        simp [List.getD, List.getElem?_eq_none (show u.code.length ≤ r + (j - d) by omega)]
    · rw [if_neg hj2, if_neg hj2]
  | mcopy d r n =>
    have hd : d < 2 ^ 256 := ha d (by simp [MemOp.operands])
    have hr : r < 2 ^ 256 := ha r (by simp [MemOp.operands])
    have hn : n < 2 ^ 256 := ha n (by simp [MemOp.operands])
    have hgas : MemOp.gas u (.mcopy d r n) = 3 + 3 * wordsFor n + if n = 0 then 0 else w.growth (wordsFor (max d r + n)) := by
      rw [← growth_copy hw]; rfl
    have hwords : MemOp.words u (.mcopy d r n) = max w.memWords (if n = 0 then 0 else wordsFor (max d r + n)) := by
      rw [← words_copy, hw]; rfl
    refine (run_mcopy (s := s) (r := r) (n := n) hP hC hm hd hr hn hb').imp hgas Iff.rfl ?_
    rintro hg - s' w' ⟨rfl, hM⟩
    rw [← hgas] at hg
    rw [← hwords] at hM
    have ht := hreach hg
    refine ⟨rfl, h.after hM (fun j hj => ?_) hg⟩
    simp only [MemOp.bytes, MemOp.write, hb j hj, MemOp.touched] at ht ⊢
    by_cases hj2 : d ≤ j ∧ j < d + n
    · rw [if_neg (by omega)] at ht
      rw [if_pos hj2, if_pos hj2, hb _ (by omega)]
    · rw [if_neg hj2, if_neg hj2]

theorem digits_unique : ∀ (m : Nat) (x y : Nat), x < 256 ^ m → y < 256 ^ m →
    (∀ i < m, x / 256 ^ i % 256 = y / 256 ^ i % 256) → x = y
  | 0, x, y, hx, hy, _ => by rw [Nat.pow_zero] at hx hy; omega
  | m + 1, x, y, hx, hy, h => by
    have h0 := h 0 (by omega)
    have := digits_unique m (x / 256) (y / 256) (by rw [Nat.pow_succ] at hx; omega) (by rw [Nat.pow_succ] at hy; omega)
      fun i hi => by
        have := h (i + 1) (by omega)
        rwa [Nat.pow_succ, Nat.mul_comm, ← Nat.div_div_eq_div_mul, ← Nat.div_div_eq_div_mul] at this
    rw [Nat.pow_zero, Nat.div_one, Nat.div_one] at h0
    omega

/-- A word is determined by its bytes. -/
theorem IsWord.unique {v v' : Nat} {f : Nat → Nat} (h : IsWord v f) (h' : IsWord v' f) : v = v' := by
  refine digits_unique 32 v v' (by rw [show (256 : Nat) ^ 32 = 2 ^ 256 by decide]; exact h.1)
    (by rw [show (256 : Nat) ^ 32 = 2 ^ 256 by decide]; exact h'.1) fun i hi => ?_
  have h1 := h.2 (31 - i) (by omega)
  have h2 := h'.2 (31 - i) (by omega)
  rw [show 31 - (31 - i) = i by omega] at h1 h2
  rw [h1, h2]

/-- C113. What MSTORE has stored, MLOAD pushes, whatever was in memory before and wherever it is. -/
theorem C113_load_after_store (hP : P.Has memSysCode) (hC : P.Copies) (h : Shows w u (k / 2 ^ 192)) {off v : Nat}
    (ho : off < 2 ^ 256) (hv : v < 2 ^ 256) (hg : k / 2 ^ 192 + ((MemOp.mstore off v).gas u + 3) ≤ w.gasLimit) :
    ∃ w', Reaches P (.goto (P.addr "sys_mstore") (k :: off :: v :: s) w)
        (.exit (k + (MemOp.mstore off v).gas u * 2 ^ 192) s w') ∧
      ∀ k', k' / 2 ^ 192 = (k + (MemOp.mstore off v).gas u * 2 ^ 192) / 2 ^ 192 →
        ∃ w'', Reaches P (.goto (P.addr "sys_mload") (k' :: off :: s) w') (.exit (k' + 3 * 2 ^ 192) (v :: s) w'') := by
  obtain ⟨s', w', h1, h2, h3, h4⟩ := (C113_memory_instructions (s := s) (op := .mstore off v) hP hC h (by
    simp only [MemOp.operands, List.mem_cons, List.not_mem_nil, or_false]; omega)).1 ⟨by omega, trivial⟩
  simp only [MemOp.Pushed] at h2
  subst h2
  refine ⟨w', h1, fun k' hk' => ?_⟩
  rw [← hk'] at h3
  have hgas : (MemOp.mload off).gas ((MemOp.mstore off v).after u) = 3 := by
    simp only [MemOp.gas, MemOp.basic, MemOp.words, MemOp.after, MemOp.touched]
    rw [Nat.max_assoc, Nat.max_self]; omega
  have hl : w'.gasLimit = w.gasLimit := h4.cell (f := 0x60000000c) (by omega) (by omega)
  obtain ⟨s'', w'', h5, ⟨v', rfl, h6⟩, -⟩ := (C113_memory_instructions (s := s') (op := .mload off) hP hC h3 (by
    simp only [MemOp.operands, List.mem_cons, List.not_mem_nil, or_false]; omega)).1 ⟨by rw [hgas, hl]; omega, trivial⟩
  rw [hgas] at h5
  have : v' = v := h6.unique ⟨hv, fun i hi => by
    simp only [MemOp.after, MemOp.bytes, MemOp.write]
    rw [if_pos (by omega), Nat.add_sub_cancel_left]⟩
  subst this
  exact ⟨w'', h5⟩

/-! ### A call -/

def memSysAll : List (String × List I) := memSysCode ++ copyCode

def memProg : Prog := tableProg memSysAll fun _ => 0

theorem memProg_has : memProg.Has memSysCode :=
  (tableProg_has memSysAll _ (by decide +kernel) (by decide +kernel) (by decide +kernel)).mono fun _ h => List.mem_append_left _ h

theorem memProg_copies : memProg.Copies :=
  tableProg_copies _ _ (by decide +kernel) (by decide +kernel) (by decide +kernel) fun _ h => List.mem_append_right _ h

/-- A call with 40 bytes of memory in use (two words), three bytes of call data, five of return data and two of
code. -/
def memView : View where
  words := 2
  bytes := fun j => if j < 40 then j + 1 else 0
  calldata := [7, 8, 9]
  returndata := [1, 2, 3, 4, 5]
  code := [0x60, 0x01]

/-- It in context 3, with a limit of 50000 gas. -/
def memWorld : World where
  ctx := 3
  inp := fun _ => 0
  mem := fun a =>
    if a = 3 * 2 ^ 64 + 0x60000000a then 2
    else if a = 3 * 2 ^ 64 + 0x600000002 then 3
    else if a = 3 * 2 ^ 64 + 0x600000003 then 5
    else if a = 3 * 2 ^ 64 + 0x600000005 then 2
    else if a = 3 * 2 ^ 64 + 0x60000000c then 50000
    else if a / 2 ^ 32 = 3 * 2 ^ 32 + 2 then memView.bytes (a % 2 ^ 32)
    else if a / 2 ^ 32 = 3 * 2 ^ 32 + 3 then memView.calldata.getD (a % 2 ^ 32) 0
    else if a / 2 ^ 32 = 3 * 2 ^ 32 + 4 then memView.returndata.getD (a % 2 ^ 32) 0
    else if a / 2 ^ 32 = 3 * 2 ^ 32 then memView.code.getD (a % 2 ^ 32) 0
    else 0

theorem memWorld_seg {q j : Nat} (hj : j < 2 ^ 32) (hq : q < 6) :
    memWorld.mem (3 * 2 ^ 64 + q * 2 ^ 32 + j) =
      if q = 2 then memView.bytes j else if q = 3 then memView.calldata.getD j 0
      else if q = 4 then memView.returndata.getD j 0 else if q = 0 then memView.code.getD j 0 else 0 := by
  have h1 : (3 * 2 ^ 64 + q * 2 ^ 32 + j) / 2 ^ 32 = 3 * 2 ^ 32 + q := by omega
  have h2 : (3 * 2 ^ 64 + q * 2 ^ 32 + j) % 2 ^ 32 = j := by omega
  simp only [memWorld, h1, h2]
  rw [if_neg (by omega), if_neg (by omega), if_neg (by omega), if_neg (by omega), if_neg (by omega)]
  refine ite_congr (by simp; omega) (fun _ => rfl) fun _ => ?_
  refine ite_congr (by simp; omega) (fun _ => rfl) fun _ => ?_
  refine ite_congr (by simp; omega) (fun _ => rfl) fun _ => ?_
  exact ite_congr (by simp) (fun _ => rfl) fun _ => rfl

theorem getD_byte (l : List Nat) (h : ∀ b ∈ l, b < 256) (i : Nat) : l.getD i 0 < 256 := by
  by_cases hi : i < l.length
  · rw [List.getD, List.getElem?_eq_getElem hi]; exact h _ (List.getElem_mem hi)
  · simp [List.getD, List.getElem?_eq_none (Nat.le_of_not_lt hi)]

theorem memWorld_shows : Shows memWorld memView 100 where
  ctx := by decide
  words := by decide +kernel
  bytes j hj := memWorld_seg (q := 2) hj (by decide)
  byte j := by simp only [memView]; split <;> omega
  fresh j hj := by simp only [memView] at hj ⊢; rw [if_neg (by omega)]
  calldata := ⟨by decide +kernel, by decide, fun i hi => memWorld_seg (q := 3) (by simp [memView] at hi; omega) (by decide), getD_byte _ (by decide)⟩
  padding i hi hl := by
    refine (memWorld_seg (q := 3) hi (by decide)).trans ?_
    simp [List.getD, List.getElem?_eq_none hl]
  returndata := ⟨by decide +kernel, by decide, fun i hi => memWorld_seg (q := 4) (by simp [memView] at hi; omega) (by decide), getD_byte _ (by decide)⟩
  code := ⟨by decide +kernel, by decide, fun i hi => memWorld_seg (q := 0) (by simp [memView] at hi; omega) (by decide), getD_byte _ (by decide)⟩
  limit := by decide +kernel
  gas := by decide +kernel
  paid := by decide

/-- CODECOPY of 40 bytes from the second byte of the code on, to 100: memory grows to five words, which costs nine,
and the bytes after the code are zero. -/
example : ∃ w', Reaches memProg (.goto (memProg.addr "sys_codecopy") [100 * 2 ^ 192 + 17, 100, 1, 40] memWorld)
      (.exit (118 * 2 ^ 192 + 17) [] w') ∧ w'.memWords = 5 ∧ w'.memByte 100 = 1 ∧ w'.memByte 101 = 0 ∧ w'.memByte 5 = 6 := by
  obtain ⟨s', w', h1, h2, h3, -⟩ := (C113_memory_instructions (s := []) (op := .codecopy 100 1 40) memProg_has memProg_copies
    (k := 100 * 2 ^ 192 + 17) (by rw [show (100 * 2 ^ 192 + 17) / 2 ^ 192 = 100 by decide]; exact memWorld_shows) (by decide)).1
    ⟨by decide +kernel, trivial⟩
  simp only [MemOp.Pushed] at h2
  subst h2
  exact ⟨w', h1, h3.words, (h3.bytes 100 (by decide)).trans (by decide +kernel), (h3.bytes 101 (by decide)).trans (by decide +kernel),
    (h3.bytes 5 (by decide)).trans (by decide +kernel)⟩

/-- MCOPY of 35 bytes from 0 to 5, which overlaps: every byte moves up. -/
example : ∃ w', Reaches memProg (.goto (memProg.addr "sys_mcopy") [100 * 2 ^ 192 + 17, 5, 0, 35] memWorld)
      (.exit (109 * 2 ^ 192 + 17) [] w') ∧ w'.memByte 4 = 5 ∧ w'.memByte 5 = 1 ∧ w'.memByte 39 = 35 := by
  obtain ⟨s', w', h1, h2, h3, -⟩ := (C113_memory_instructions (s := []) (op := .mcopy 5 0 35) memProg_has memProg_copies
    (k := 100 * 2 ^ 192 + 17) (by rw [show (100 * 2 ^ 192 + 17) / 2 ^ 192 = 100 by decide]; exact memWorld_shows) (by decide)).1
    ⟨by decide +kernel, trivial⟩
  simp only [MemOp.Pushed] at h2
  subst h2
  exact ⟨w', h1, (h3.bytes 4 (by decide)).trans (by decide +kernel), (h3.bytes 5 (by decide)).trans (by decide +kernel),
    (h3.bytes 39 (by decide)).trans (by decide +kernel)⟩

/-- RETURNDATACOPY of one byte too many faults, and so does an MSTORE whose memory cannot be paid. -/
example : (∃ s' w', Reaches memProg (.goto (memProg.addr "sys_returndatacopy") [100 * 2 ^ 192 + 17, 0, 3, 3] memWorld)
      (.goto (memProg.addr "fault_exception") s' w')) ∧
    ∃ s' w', Reaches memProg (.goto (memProg.addr "sys_mstore") [100 * 2 ^ 192 + 17, 2 ^ 255, 3] memWorld)
      (.goto (memProg.addr "fault_exception") s' w') := by
  have hs : Shows memWorld memView ((100 * 2 ^ 192 + 17) / 2 ^ 192) := by
    rw [show (100 * 2 ^ 192 + 17) / 2 ^ 192 = 100 by decide]; exact memWorld_shows
  exact ⟨(C113_memory_instructions (s := []) (op := .returndatacopy 0 3 3) memProg_has memProg_copies hs (by decide)).2
      fun h => absurd (show 3 + 3 ≤ 5 from h.2) (by decide),
    (C113_memory_instructions (s := []) (op := .mstore (2 ^ 255) 3) memProg_has memProg_copies hs (by decide)).2
      fun h => absurd h.1 (by decide +kernel)⟩

/-- A word stored at 1000 is loaded again. -/
example : ∃ w' w'', Reaches memProg (.goto (memProg.addr "sys_mstore") [100 * 2 ^ 192 + 17, 1000, 2 ^ 200 + 5] memWorld)
      (.exit (198 * 2 ^ 192 + 17) [] w') ∧
    Reaches memProg (.goto (memProg.addr "sys_mload") [198 * 2 ^ 192 + 18, 1000] w') (.exit (201 * 2 ^ 192 + 18) [2 ^ 200 + 5] w'') := by
  have hs : Shows memWorld memView ((100 * 2 ^ 192 + 17) / 2 ^ 192) := by
    rw [show (100 * 2 ^ 192 + 17) / 2 ^ 192 = 100 by decide]; exact memWorld_shows
  obtain ⟨w', h1, h2⟩ := C113_load_after_store (s := []) (off := 1000) (v := 2 ^ 200 + 5) memProg_has memProg_copies hs
    (by decide) (by decide) (by decide +kernel)
  obtain ⟨w'', h3⟩ := h2 (198 * 2 ^ 192 + 18) (by decide +kernel)
  exact ⟨w', w'', h1, h3⟩

end Verif.Kasm
