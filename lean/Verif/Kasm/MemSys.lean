import Verif.Kasm.Env
import Verif.Kasm.Copy
import Verif.Kasm.Code.MemSys

/-! The EVM's instructions on memory, as the kernel serves them. -/

namespace Verif.Kasm

variable {P : Prog} {c : List I} {s : List Nat} {w : World} {k g n : Nat}

/-! ### Memory of a call -/

/-- The number of 32-byte words of memory in use (`constants/context_metadata.rs`, `MemWords`). -/
def World.memWords (w : World) : Nat := w.mem (w.ctx * 2 ^ 64 + 0x60000000a)

/-- A byte of the memory of the call (segment 2, `MainMemory`). -/
def World.memByte (w : World) (j : Nat) : Nat := w.mem (w.ctx * 2 ^ 64 + 0x200000000 + j)

/-- The price of a memory of `x` words (Yellow Paper, `Cmem`). -/
def memCost (x : Nat) : Nat := 3 * x + x * x / 512

/-- The words for so many bytes. -/
def wordsFor (b : Nat) : Nat := (b + 31) / 32

theorem memCost_mono {x y : Nat} (h : x ≤ y) : memCost x ≤ memCost y := by
  have := Nat.div_le_div_right (c := 512) (Nat.mul_le_mul h h)
  simp only [memCost]; omega

/-- The memory of the call has at least `n` words. -/
def World.grow (w : World) (n : Nat) : World := w.set (w.ctx * 2 ^ 64 + 0x60000000a) (max w.memWords n)

@[simp] theorem grow_ctx : (w.grow n).ctx = w.ctx := rfl
@[simp] theorem grow_inp : (w.grow n).inp = w.inp := rfl

theorem grow_mem {a : Nat} (h : a ≠ w.ctx * 2 ^ 64 + 0x60000000a) : (w.grow n).mem a = w.mem a := set_ne h

theorem grow_gasLimit : (w.grow n).gasLimit = w.gasLimit := by
  simp only [World.gasLimit, grow_ctx]
  exact grow_mem (by omega)

theorem grow_words : (w.grow n).memWords = max w.memWords n := by
  exact set_same (w := w)

theorem grow_byte {j : Nat} (hj : j < 2 ^ 32) : (w.grow n).memByte j = w.memByte j := by
  simp only [World.memByte, grow_ctx]
  exact grow_mem (by omega)

theorem grow_none (h : n ≤ w.memWords) : w.grow n = w := by
  refine World.mem_ext (fun a => ?_) rfl rfl
  simp only [World.grow, set_mem]
  by_cases ha : a = w.ctx * 2 ^ 64 + 0x60000000a
  · subst ha; rw [if_pos rfl, Nat.max_eq_left h]; rfl
  · rw [if_neg ha]

/-- The gas counter covers the memory in use, and the gas limit is one at which the kernel's bound on
offsets is without effect. -/
structure Metered (w : World) (k : Nat) : Prop where
  ctx : w.ctx < 2 ^ 32
  gas : k / 2 ^ 192 ≤ w.gasLimit
  limit : w.gasLimit ≤ 2 ^ 32
  paid : memCost w.memWords ≤ k / 2 ^ 192

theorem Metered.serving (h : Metered w k) : Serving w k := ⟨h.ctx, h.gas, by have := h.limit; omega⟩

theorem memCost_big {x : Nat} (h : 1562501 ≤ x) : 2 ^ 32 < memCost x :=
  Nat.lt_of_lt_of_le (by decide) (memCost_mono h)

theorem memCost_small {x : Nat} (h : x ≤ 1562502) : memCost x < 2 ^ 33 :=
  Nat.lt_of_le_of_lt (memCost_mono h) (by decide)

theorem Metered.words (h : Metered w k) : w.memWords < 1562501 := by
  by_cases hw : w.memWords < 1562501
  · exact hw
  · have := memCost_big (Nat.le_of_not_lt hw); have := h.paid; have := h.gas; have := h.limit; omega

/-- What is charged for having at least `n` words. -/
def World.growth (w : World) (n : Nat) : Nat := memCost (max w.memWords n) - memCost w.memWords

/-- More memory than the kernel's bound allows cannot be paid. -/
theorem Metered.unreasonable (h : Metered w k) (hn : 1562501 ≤ n) : ¬ k / 2 ^ 192 + w.growth n ≤ w.gasLimit := by
  have h1 := memCost_big (x := max w.memWords n) (by omega)
  have h2 := h.paid; have h3 := h.limit
  simp only [World.growth]; omega

theorem growth_lt (h : Metered w k) (hn : n ≤ 1562502) : w.growth n < 2 ^ 33 := by
  have := memCost_small (x := max w.memWords n) (by have := h.words; omega)
  simp only [World.growth]; omega

/-! ### The macros -/

theorem exec_reasonable {x : Nat} : exec P (m_ensure_reasonable_offset ++ c) (x :: s) w =
    if x ≤ 50000000 then exec P c s w else .goto (P.addr "fault_exception") s w := by
  kexec [m_ensure_reasonable_offset, m_gt_const]

theorem exec_num_words {x : Nat} (h : x + 31 < 2 ^ 256) : exec P (m_num_bytes_to_num_words ++ c) (x :: s) w =
    exec P c (wordsFor x :: s) w := by
  kexec [m_num_bytes_to_num_words, m_add_const, m_shr_const]
  rw [show wshr 5 (wadd 31 x) = wordsFor x by
    rw [wadd_small (by omega)]; simp only [wshr, wordsFor]; rw [if_neg (by omega)]; omega]

theorem exec_add_or_fault {x y : Nat} (hx : x < 2 ^ 256) (hy : y < 2 ^ 256) :
    exec P (m_add_or_fault ++ c) (x :: y :: s) w =
      if x + y < 2 ^ 256 then exec P c ((x + y) :: s) w
      else .goto (P.addr "fault_exception") ((x + y - 2 ^ 256) :: s) w := by
  kexec [m_add_or_fault]
  by_cases h : x + y < 2 ^ 256
  · rw [if_pos h, wadd_small (by omega), if_pos (by omega), Nat.add_comm]
  · rw [if_neg h, show wadd y x = x + y - 2 ^ 256 by simp only [wadd]; omega, if_neg (by omega)]

theorem exec_check_u32 {x y : Nat} (hx : x < 2 ^ 256) (hy : y < 2 ^ 256) (h : x + y < 2 ^ 32) :
    exec P (m_check_u32_add ++ c) (x :: y :: s) w = exec P c s w := by
  rw [m_check_u32_add, List.append_assoc, exec_add_or_fault hx hy, if_pos (by omega)]
  kexec []
  rw [if_pos (by omega)]

/-- Charging gas, whatever the amount: the code goes on with some return information, or faults. -/
theorem exec_charge_any : ∃ k',
    exec P (m_charge_gas ++ c) (g :: k :: s) w = exec P c (k' :: s) w ∨
    exec P (m_charge_gas ++ c) (g :: k :: s) w = .goto (P.addr "fault_exception") (k' :: s) w := by
  kexec [m_charge_gas, m_shl_const, m_ctx_gas_limit, m_mload_context_metadata, m_shr_const]
  rw [exec_mload (segOk_ctx (by omega))]
  kexec []
  refine ⟨wadd (wshl 192 g) k, ?_⟩
  split
  · exact .inl rfl
  · exact .inr rfl

theorem exec_memory_cost {x : Nat} (h : x < 2 ^ 64) : exec P (m_memory_cost ++ c) (x :: s) w =
    exec P c (memCost x :: s) w := by
  have h2 : x * x < 2 ^ 64 * 2 ^ 64 := Nat.mul_lt_mul'' h h
  kexec [m_memory_cost, m_mul_const, m_square, m_shr_const]
  rw [wmul_small (a := 3) (by omega), wmul_small (by omega),
    show wshr 9 (x * x) = x * x / 512 by simp only [wshr]; rw [if_neg (by omega)], wadd_small (by omega), Nat.add_comm]
  rfl

/-- `%update_mem_words` (`asm/memory/metadata.asm:371-393`) with the names of its labels. -/
def updMem (lno lend : String) : List I :=
  m_mem_words ++ DUP 2 :: DUP 2 :: GT :: (m_jumpi (.lab lno) ++
    (m_memory_cost ++ SWAP 1 :: DUP 1 :: (m_mstore_context_metadata1 (.lit 0x60000000a) ++ (m_memory_cost ++ SUB :: (m_charge_gas ++
    (m_jump (.lab lend) ++ []))))))

/-- The labels of an `%update_mem_words` lead to the code after it. -/
structure Updates (P : Prog) (lno lend : String) (b : List I) : Prop where
  no : ∀ {s w o}, Reaches P (exec P (m_pop2 ++ b) s w) o → Reaches P (.goto (P.addr lno) s w) o
  fin : ∀ {s w o}, Reaches P (exec P b s w) o → Reaches P (.goto (P.addr lend) s w) o

/-- Growing the memory is charged. -/
theorem run_update {lno lend : String} {b : List I} (hU : Updates P lno lend b) (h : Metered w k) (hn : n ≤ 1562502) :
    Reaches P (exec P (updMem lno lend) (n :: k :: s) w)
      (if k / 2 ^ 192 + w.growth n ≤ w.gasLimit then exec P b ((k + w.growth n * 2 ^ 192) :: s) (w.grow n)
       else .goto (P.addr "fault_exception") ((k + w.growth n * 2 ^ 192) :: s) (w.grow n)) := by
  have hm := h.words
  have hg := growth_lt h hn
  rw [updMem, m_mem_words, List.append_nil, exec_load_ctx h.ctx (by omega)]
  kexec []
  rw [show w.mem (w.ctx * 2 ^ 64 + 0x60000000a) = w.memWords from rfl]
  by_cases hle : w.memWords ≤ n
  · rw [if_pos hle, exec_memory_cost (by omega)]
    kexec [m_mstore_context_metadata1]
    rw [exec_mstore (segOk_ctx (by omega)), key_ctx h.ctx (by omega), exec_memory_cost (by omega)]
    kexec []
    have hmono := memCost_mono hle
    have h33 := memCost_small hn
    rw [wsub_small hmono (by omega)]
    have hd : w.growth n = memCost n - memCost w.memWords := by simp only [World.growth, Nat.max_eq_right hle]
    rw [show w.set (w.ctx * 2 ^ 64 + 0x60000000a) n = w.grow n by rw [World.grow, Nat.max_eq_right hle], ← hd,
      exec_charge_gas (w := w.grow n) h.ctx (h.serving.room (by omega)), grow_gasLimit]
    by_cases hgas : k / 2 ^ 192 + w.growth n ≤ w.gasLimit
    · rw [if_pos hgas, if_pos hgas]
      kexec []
      exact hU.fin (.refl _)
    · rw [if_neg hgas, if_neg hgas]
      exact .refl _
  · rw [if_neg hle]
    refine hU.no ?_
    kexec [m_pop2, rep]
    rw [grow_none (by omega), show w.growth n = 0 by simp only [World.growth]; rw [Nat.max_eq_left (by omega)]; omega,
      Nat.add_zero, Nat.zero_mul, Nat.add_zero, if_pos h.gas]
    exact .refl _

/-! ### How calls end -/

/-- A call that costs `gas`: if it can be paid (and `ok`) it returns to the user, with the stack and the
memory as described; otherwise it faults. -/
def Served (P : Prog) (o : Out) (w : World) (k gas : Nat) (ok : Prop) (Q : List Nat → World → Prop) : Prop :=
  (k / 2 ^ 192 + gas ≤ w.gasLimit ∧ ok → ∃ s' w', Reaches P o (.exit (k + gas * 2 ^ 192) s' w') ∧ Q s' w') ∧
  (¬ (k / 2 ^ 192 + gas ≤ w.gasLimit ∧ ok) → ∃ s' w', Reaches P o (.goto (P.addr "fault_exception") s' w'))

theorem Served.of {o o' : Out} {gas : Nat} {ok : Prop} {Q : List Nat → World → Prop} (h : Reaches P o o')
    (h' : Served P o' w k gas ok Q) : Served P o w k gas ok Q :=
  ⟨fun hk => let ⟨s, w, h1, h2⟩ := h'.1 hk; ⟨s, w, h.trans h1, h2⟩,
   fun hk => let ⟨s, w, h1⟩ := h'.2 hk; ⟨s, w, h.trans h1⟩⟩

theorem Served.fault {gas : Nat} {ok : Prop} {Q : List Nat → World → Prop} {w' : World}
    (h : ¬ (k / 2 ^ 192 + gas ≤ w.gasLimit ∧ ok)) : Served P (.goto (P.addr "fault_exception") s w') w k gas ok Q :=
  ⟨fun hk => absurd hk h, fun _ => ⟨s, w', .refl _⟩⟩

theorem Served.exit {gas : Nat} {ok : Prop} {Q : List Nat → World → Prop} {w' : World} {o : Out}
    (hg : k / 2 ^ 192 + gas ≤ w.gasLimit) (hok : ok) (h : Reaches P o (.exit (k + gas * 2 ^ 192) s w')) (hQ : Q s w') :
    Served P o w k gas ok Q :=
  ⟨fun _ => ⟨s, w', h, hQ⟩, fun hk => absurd ⟨hg, hok⟩ hk⟩

/-- What is left of the memory: `m` words, its bytes, and everything else as before. -/
def MemAfter (w w' : World) (m : Nat) (f : Nat → Nat) : Prop :=
  w'.ctx = w.ctx ∧ w'.inp = w.inp ∧ w'.memWords = m ∧ (∀ j < 2 ^ 32, w'.memByte j = f j) ∧
  ∀ a, a ≠ w.ctx * 2 ^ 64 + 0x60000000a → ¬ (w.ctx * 2 ^ 64 + 0x200000000 ≤ a ∧ a < w.ctx * 2 ^ 64 + 0x200000000 + 2 ^ 32) →
    w'.mem a = w.mem a

theorem memAfter_grow : MemAfter w (w.grow n) (max w.memWords n) w.memByte :=
  ⟨rfl, rfl, grow_words, fun _ hj => grow_byte hj, fun _ ha _ => grow_mem ha⟩

theorem outside {B L a d l : Nat} (hd : d + l ≤ L) (hm : ¬ (B ≤ a ∧ a < B + L)) : ¬ (B + d ≤ a ∧ a < B + d + l) := by omega

/-- A block of the memory is written after it has grown. -/
theorem memAfter_write {w' : World} {d l : Nat} {f : Nat → Nat} (hd : d + l ≤ 2 ^ 32) (hc : w'.ctx = w.ctx) (hi : w'.inp = w.inp)
    (h1 : ∀ i < l, w'.mem (w.ctx * 2 ^ 64 + 0x200000000 + d + i) = f i)
    (h2 : ∀ a, ¬ (w.ctx * 2 ^ 64 + 0x200000000 + d ≤ a ∧ a < w.ctx * 2 ^ 64 + 0x200000000 + d + l) →
      w'.mem a = (w.grow n).mem a) :
    MemAfter w w' (max w.memWords n) fun j => if d ≤ j ∧ j < d + l then f (j - d) else w.memByte j := by
  refine ⟨hc, hi, ?_, fun j hj => ?_, fun a ha hm => ?_⟩
  · rw [← grow_words (n := n)]
    simp only [World.memWords, hc, grow_ctx]
    exact h2 _ (by omega)
  · simp only [World.memByte, hc]
    by_cases h : d ≤ j ∧ j < d + l
    · have e : w.ctx * 2 ^ 64 + 0x200000000 + j = w.ctx * 2 ^ 64 + 0x200000000 + d + (j - d) := by omega
      rw [if_pos h, e, h1 _ (by omega)]
    · have e : ¬ (w.ctx * 2 ^ 64 + 0x200000000 + d ≤ w.ctx * 2 ^ 64 + 0x200000000 + j ∧
        w.ctx * 2 ^ 64 + 0x200000000 + j < w.ctx * 2 ^ 64 + 0x200000000 + d + l) := by omega
      rw [if_neg h, h2 _ e]; exact grow_byte hj
  · rw [h2 _ (outside hd hm), grow_mem ha]

/-! ### Addresses -/

theorem build_addr {b q x : Nat} (hb : b < 2 ^ 32) (hq : q < 2 ^ 64) (hx : x < 2 ^ 64) :
    wadd (wadd (b * 2 ^ 64) q) x = b * 2 ^ 64 + q + x := by
  rw [wadd_small (a := b * 2 ^ 64) (by omega), wadd_small (by omega)]

theorem span_at {b q x l : Nat} (hb : b < 2 ^ 32) (hq : q % 2 ^ 32 = 0) (hq' : q < 39 * 2 ^ 32) (hx : x < 2 ^ 32)
    (hl : x + l ≤ 2 ^ 32) : Span (b * 2 ^ 64 + q + x) l := by
  refine ⟨?_, ?_, ?_⟩
  · omega
  · simp only [SegOk]; omega
  · omega

theorem Span.mload {a : Nat} (h : Span a n) (hn : n ≤ 32) :
    exec P (MLOAD_32BYTES :: c) (a :: n :: s) w = exec P c (beVal (bytesAt w a n) :: s) w := by
  rw [exec_mload32 ⟨h.2.1, hn, h.2.2⟩, h.key]

/-! ### MLOAD, MSTORE, MSTORE8, MSIZE -/

/-- `v` is the word with these 32 bytes, the first one highest. -/
def IsWord (v : Nat) (f : Nat → Nat) : Prop := v < 2 ^ 256 ∧ ∀ i < 32, v / 256 ^ (31 - i) % 256 = f i

theorem isWord_bytes {a : Nat} (h : ∀ i < 32, w.mem (a + i) < 256) :
    IsWord (beVal (bytesAt w a 32)) fun i => w.mem (a + i) := by
  constructor
  · have := beVal_lt (bytesAt w a 32) (by
      intro b hb
      simp only [bytesAt, List.mem_map] at hb
      obtain ⟨i, -, rfl⟩ := hb
      exact Nat.mod_lt _ (by decide))
    have hl : (bytesAt w a 32).length = 32 := by simp [bytesAt]
    rw [hl] at this
    exact this
  · intro i hi
    have := dig_bytes w a 32 i hi
    rw [Nat.mod_eq_of_lt (h i hi)] at this
    exact this

theorem not_both {a b l : Nat} (h : ¬ a ≤ l) (hab : a ≤ b) {ok : Prop} : ¬ (b ≤ l ∧ ok) := fun h' => h (by omega)

/-- `%ensure_reasonable_offset`, the charge of 3 and the growth that MLOAD, MSTORE and MSTORE8 have in common. -/
theorem run_access {lno lend : String} {b : List I} {off l : Nat} {Q : List Nat → World → Prop}
    (hU : Updates P lno lend b) (h : Metered w k) (hoff : off < 2 ^ 256) (hl : 1 ≤ l) (hl' : l ≤ 32)
    (hc : ∀ {s}, exec P c (off :: s) w = exec P (m_num_bytes_to_num_words ++ updMem lno lend) ((off + l) :: s) w ∨
      2 ^ 32 ≤ off)
    (hQ : k / 2 ^ 192 + (3 + w.growth (wordsFor (off + l))) ≤ w.gasLimit → off ≤ 50000000 →
      ∃ s' w', Reaches P (exec P b ((k + (3 + w.growth (wordsFor (off + l))) * 2 ^ 192) :: off :: s)
        (w.grow (wordsFor (off + l)))) (.exit (k + (3 + w.growth (wordsFor (off + l))) * 2 ^ 192) s' w') ∧ Q s' w') :
    Served P (exec P (DUP 2 :: (m_ensure_reasonable_offset ++ (m_charge_gas_const (.lit 3) ++ DUP 2 :: c))) (k :: off :: s) w)
      w k (3 + w.growth (wordsFor (off + l))) True Q := by
  rw [exec_dup2, exec_reasonable]
  by_cases ho : off ≤ 50000000
  · rw [if_pos ho, exec_charge_const h.serving (by omega)]
    have hw : wordsFor (off + l) ≤ 1562502 := by simp only [wordsFor]; omega
    by_cases h3 : k / 2 ^ 192 + 3 ≤ w.gasLimit
    · rw [if_pos h3, exec_dup2]
      rcases hc (s := (k + 3 * 2 ^ 192) :: off :: s) with hc | hc
      · rw [hc, exec_num_words (by omega)]
        have hk : (k + 3 * 2 ^ 192) / 2 ^ 192 = k / 2 ^ 192 + 3 := by omega
        have h' : Metered w (k + 3 * 2 ^ 192) := ⟨h.ctx, by omega, h.limit, by have := h.paid; omega⟩
        refine .of (run_update hU h' hw) ?_
        rw [hk, show k + 3 * 2 ^ 192 + w.growth (wordsFor (off + l)) * 2 ^ 192
          = k + (3 + w.growth (wordsFor (off + l))) * 2 ^ 192 by omega, Nat.add_assoc]
        by_cases hg : k / 2 ^ 192 + (3 + w.growth (wordsFor (off + l))) ≤ w.gasLimit
        · rw [if_pos hg]
          obtain ⟨s', w', h1, h2⟩ := hQ hg ho
          exact .exit hg trivial h1 h2
        · rw [if_neg hg]
          exact .fault fun h => hg h.1
      · omega
    · rw [if_neg h3]
      exact .fault fun h => by omega
  · rw [if_neg ho]
    refine .fault fun h' => h.unreasonable (n := wordsFor (off + l)) (by simp only [wordsFor]; omega) (by omega)

theorem Prog.Has.updates {code : List (String × List I)} (hP : P.Has code) {lno lend : String} {b : List I}
    (h1 : (lno, m_pop2 ++ b) ∈ code) (h2 : (lend, b) ∈ code) : Updates P lno lend b :=
  ⟨fun h => .enter hP h1 h, fun h => .enter hP h2 h⟩

section
variable (hP : P.Has memSysCode)
include hP

theorem has_upd2 : Updates P "syscalls@2.no_update" "syscalls@2.end" b_syscalls_2_end := hP.updates (by simp [memSysCode, b_syscalls_2_no_update]) (by simp [memSysCode])
theorem has_upd4 : Updates P "syscalls@4.no_update" "syscalls@4.end" b_syscalls_4_end := hP.updates (by simp [memSysCode, b_syscalls_4_no_update]) (by simp [memSysCode])
theorem has_upd6 : Updates P "syscalls@6.no_update" "syscalls@6.end" b_syscalls_6_end := hP.updates (by simp [memSysCode, b_syscalls_6_no_update]) (by simp [memSysCode])
theorem has_upd10 : Updates P "syscalls@10.no_update" "syscalls@10.end" b_syscalls_10_end := hP.updates (by simp [memSysCode, b_syscalls_10_no_update]) (by simp [memSysCode])
theorem has_upd13 : Updates P "syscalls@13.no_update" "syscalls@13.end" b_syscalls_13_end := hP.updates (by simp [memSysCode, b_syscalls_13_no_update]) (by simp [memSysCode])
theorem has_upd15 : Updates P "syscalls@15.no_update" "syscalls@15.end" b_syscalls_15_end := hP.updates (by simp [memSysCode, b_syscalls_15_no_update]) (by simp [memSysCode])
theorem has_upd20 : Updates P "syscalls@20.no_update" "syscalls@20.end" b_syscalls_20_end := hP.updates (by simp [memSysCode, b_syscalls_20_no_update]) (by simp [memSysCode])
theorem has_upd22 : Updates P "syscalls@22.no_update" "syscalls@22.end" b_syscalls_22_end := hP.updates (by simp [memSysCode, b_syscalls_22_no_update]) (by simp [memSysCode])

/-- `asm/memory/syscalls.asm:1-17`. -/
theorem run_mload {off : Nat} (h : Metered w k) (hoff : off < 2 ^ 256) (hb : ∀ j < 2 ^ 32, w.memByte j < 256) :
    Served P (.goto (P.addr "sys_mload") (k :: off :: s) w) w k (3 + w.growth (wordsFor (off + 32))) True fun s' w' =>
      (∃ v, s' = v :: s ∧ IsWord v fun i => w.memByte (off + i)) ∧
      MemAfter w w' (max w.memWords (wordsFor (off + 32))) w.memByte := by
  refine .of (.enter hP (l := "sys_mload") (c := b_sys_mload) (by simp [memSysCode]) (.refl _)) ?_
  rw [b_sys_mload]
  refine run_access (has_upd2 hP) h hoff (by omega) (by omega) ?_ ?_
  · intro s
    by_cases ho : off < 2 ^ 32
    · refine .inl ?_
      simp only [m_add_const, List.cons_append, List.nil_append, exec_push', val_lit, exec_bin]
      rw [wadd_small (by omega), Nat.add_comm 32 off]
      rfl
    · exact .inr (by omega)
  · intro hg ho
    generalize k + (3 + w.growth (wordsFor (off + 32))) * 2 ^ 192 = k'
    have hs : Span (w.ctx * 2 ^ 64 + 0x200000000 + off) 32 := span_at h.ctx (by omega) (by omega) (by omega) (by omega)
    rw [b_syscalls_2_end]
    kexec [m_build_address]
    rw [grow_ctx, build_addr h.ctx (by omega) (by omega), hs.mload (by omega)]
    kexec []
    refine ⟨_, _, .refl _, ⟨_, rfl, ?_⟩, memAfter_grow⟩
    have e : ∀ i < 32, (w.grow (wordsFor (off + 32))).mem (w.ctx * 2 ^ 64 + 0x200000000 + off + i) = w.memByte (off + i) := by
      intro i hi
      rw [Nat.add_assoc _ off i]
      exact grow_byte (j := off + i) (by omega)
    have := isWord_bytes (w := w.grow (wordsFor (off + 32))) (a := w.ctx * 2 ^ 64 + 0x200000000 + off) fun i hi => by
      rw [e i hi]; exact hb _ (by omega)
    exact ⟨this.1, fun i hi => (this.2 i hi).trans (e i hi)⟩

/-- `asm/memory/syscalls.asm:20-38`. -/
theorem run_mstore {off v : Nat} (h : Metered w k) (hoff : off < 2 ^ 256) :
    Served P (.goto (P.addr "sys_mstore") (k :: off :: v :: s) w) w k (3 + w.growth (wordsFor (off + 32))) True fun s' w' =>
      s' = s ∧ MemAfter w w' (max w.memWords (wordsFor (off + 32))) fun j =>
        if off ≤ j ∧ j < off + 32 then v / 256 ^ (31 - (j - off)) % 256 else w.memByte j := by
  refine .of (.enter hP (l := "sys_mstore") (c := b_sys_mstore) (by simp [memSysCode]) (.refl _)) ?_
  rw [b_sys_mstore]
  refine run_access (has_upd4 hP) h hoff (by omega) (by omega) ?_ ?_
  · intro s
    by_cases ho : off < 2 ^ 32
    · refine .inl ?_
      simp only [m_add_const, List.cons_append, List.nil_append, exec_push', val_lit, exec_bin]
      rw [wadd_small (by omega), Nat.add_comm 32 off]
      rfl
    · exact .inr (by omega)
  · intro hg ho
    generalize k + (3 + w.growth (wordsFor (off + 32))) * 2 ^ 192 = k'
    have hs : Span (w.ctx * 2 ^ 64 + 0x200000000 + off) 32 := span_at h.ctx (by omega) (by omega) (by omega) (by omega)
    rw [b_syscalls_4_end]
    kexec [m_build_address]
    rw [grow_ctx, build_addr h.ctx (by omega) (by omega), exec_mstore32 hs]
    kexec []
    refine ⟨_, _, .refl _, rfl, memAfter_write (d := off) (l := 32) (f := fun i => v / 256 ^ (31 - i) % 256) (by omega)
      (storeBytes_ctx ..) (storeBytes_inp ..) (fun i hi => ?_) (fun a ha => ?_)⟩
    · rw [storeBytes_mem, if_pos (by omega), Nat.add_sub_cancel_left]; rfl
    · rw [storeBytes_mem, if_neg ha]

/-- `asm/memory/syscalls.asm:40-54`. -/
theorem run_mstore8 {off v : Nat} (h : Metered w k) (hoff : off < 2 ^ 256) :
    Served P (.goto (P.addr "sys_mstore8") (k :: off :: v :: s) w) w k (3 + w.growth (wordsFor (off + 1))) True fun s' w' =>
      s' = s ∧ MemAfter w w' (max w.memWords (wordsFor (off + 1))) fun j =>
        if off ≤ j ∧ j < off + 1 then v % 256 else w.memByte j := by
  refine .of (.enter hP (l := "sys_mstore8") (c := b_sys_mstore8) (by simp [memSysCode]) (.refl _)) ?_
  rw [b_sys_mstore8]
  refine run_access (has_upd6 hP) h hoff (by omega) (by omega) ?_ ?_
  · intro s
    by_cases ho : off < 2 ^ 32
    · refine .inl ?_
      simp only [m_increment, m_add_const, List.cons_append, List.nil_append, exec_push', val_lit, exec_bin]
      rw [wadd_small (by omega), Nat.add_comm 1 off]
      rfl
    · exact .inr (by omega)
  · intro hg ho
    generalize k + (3 + w.growth (wordsFor (off + 1))) * 2 ^ 192 = k'
    have hs : Span (w.ctx * 2 ^ 64 + 0x200000000 + off) 1 := span_at h.ctx (by omega) (by omega) (by omega) (by omega)
    rw [b_syscalls_6_end]
    kexec [m_mstore_current1, m_build_address]
    rw [grow_ctx, build_addr h.ctx (by omega) (by omega), exec_mstore hs.2.1, hs.key]
    kexec []
    refine ⟨_, _, .refl _, rfl, memAfter_write (d := off) (l := 1) (f := fun i => v % 256) (by omega)
      rfl rfl (fun i hi => ?_) (fun a ha => ?_)⟩
    · rw [set_mem, if_pos (by omega)]; rfl
    · rw [set_mem, if_neg (by omega)]

/-- `asm/memory/metadata.asm:155-171`. -/
theorem run_msize (h : Metered w k) :
    Served P (.goto (P.addr "sys_msize") (k :: s) w) w k 2 True fun s' w' => s' = (32 * w.memWords) :: s ∧ w' = w := by
  refine .of (.enter hP (l := "sys_msize") (c := b_sys_msize) (by simp [memSysCode]) (.refl _)) ?_
  have hw := h.words
  rw [b_sys_msize, exec_charge_const h.serving (by omega)]
  by_cases hg : k / 2 ^ 192 + 2 ≤ w.gasLimit
  · rw [if_pos hg, m_msize, List.append_assoc, m_mem_words, List.append_nil, exec_load_ctx h.ctx (by omega)]
    kexec [m_mul_const]
    rw [show w.mem (w.ctx * 2 ^ 64 + 0x60000000a) = w.memWords from rfl, wmul_small (by omega)]
    exact .exit hg trivial (.refl _) ⟨rfl, rfl⟩
  · rw [if_neg hg]
    exact .fault fun h => hg h.1

/-- `asm/memory/syscalls.asm:56-76`. -/
theorem run_calldataload {i : Nat} (h : Metered w k) (hsz : w.mem (w.ctx * 2 ^ 64 + 0x600000002) < 2 ^ 31)
    (hb : ∀ j < 2 ^ 32, w.mem (w.ctx * 2 ^ 64 + 0x300000000 + j) < 256) :
    Served P (.goto (P.addr "sys_calldataload") (k :: i :: s) w) w k 3 True fun s' w' =>
      (∃ v, s' = v :: s ∧ IsWord v fun j => if i ≤ w.mem (w.ctx * 2 ^ 64 + 0x600000002)
        then w.mem (w.ctx * 2 ^ 64 + 0x300000000 + (i + j)) else 0) ∧ w' = w := by
  refine .of (.enter hP (l := "sys_calldataload") (c := b_sys_calldataload) (by simp [memSysCode]) (.refl _)) ?_
  rw [b_sys_calldataload, exec_charge_const h.serving (by omega)]
  by_cases hg : k / 2 ^ 192 + 3 ≤ w.gasLimit
  · rw [if_pos hg, exec_load_ctx h.ctx (by omega)]
    kexec [m_build_address]
    by_cases hi : i ≤ w.mem (w.ctx * 2 ^ 64 + 0x600000002)
    · have hs : Span (w.ctx * 2 ^ 64 + 0x300000000 + i) 32 := span_at h.ctx (by omega) (by omega) (by omega) (by omega)
      rw [if_pos hi, build_addr h.ctx (by omega) (by omega), hs.mload (by omega), b_sys_calldataload_after_mload_packing]
      kexec []
      refine .exit hg trivial (.refl _) ⟨⟨_, rfl, ?_⟩, rfl⟩
      have := isWord_bytes (w := w) (a := w.ctx * 2 ^ 64 + 0x300000000 + i) fun j hj => by
        rw [Nat.add_assoc _ i j]; exact hb _ (by omega)
      refine ⟨this.1, fun j hj => (this.2 j hj).trans ?_⟩
      simp only [if_pos hi, Nat.add_assoc]
    · rw [if_neg hi]
      refine .of (.enter hP (l := "calldataload_large_offset") (c := b_calldataload_large_offset) (by simp [memSysCode]) (.refl _)) ?_
      rw [b_calldataload_large_offset]
      kexec []
      refine .exit hg trivial (.refl _) ⟨⟨_, rfl, by decide, fun j hj => ?_⟩, rfl⟩
      simp only [if_neg hi, Nat.zero_div, Nat.zero_mod]
  · rw [if_neg hg]
    exact .fault fun h => hg h.1

end

theorem memAfter_none {f : Nat → Nat} (h : ∀ j < 2 ^ 32, f j = w.memByte j) : MemAfter w w (max w.memWords 0) f :=
  ⟨rfl, rfl, (Nat.max_eq_left (Nat.zero_le _)).symm, fun j hj => (h j hj).symm, fun _ _ _ => rfl⟩

theorem grow_cell {f : Nat} (hf : f ≠ 0x60000000a) (_ : f < 2 ^ 64) :
    (w.grow n).mem (w.ctx * 2 ^ 64 + f) = w.mem (w.ctx * 2 ^ 64 + f) := grow_mem (by omega)

/-! ### The copying instructions -/

theorem copy_ctx {d r : Nat} : (w.copy d r n).ctx = w.ctx := rfl
theorem clear_ctx {d : Nat} : (w.clear d n).ctx = w.ctx := rfl
theorem copy_inp {d r : Nat} : (w.copy d r n).inp = w.inp := rfl
theorem clear_inp {d : Nat} : (w.clear d n).inp = w.inp := rfl
theorem copy_mem {d r a : Nat} : (w.copy d r n).mem a = if d ≤ a ∧ a < d + n then w.mem (r + (a - d)) else w.mem a := rfl
theorem clear_mem {d a : Nat} : (w.clear d n).mem a = if d ≤ a ∧ a < d + n then 0 else w.mem a := rfl

/-- What the copying instructions start with. -/
def copyHead (lno lend : String) : List I :=
  m_wcopy_charge_gas ++ STK 4 [.e 1, .e 3, .e 0, .e 1, .e 2, .e 3] ::
    (m_add_or_fault ++ DUP 1 :: (m_ensure_reasonable_offset ++ (m_num_bytes_to_num_words ++ updMem lno lend)))

theorem run_head {lno lend : String} {b : List I} {d r G : Nat} {ok : Prop} {Q : List Nat → World → Prop}
    (hP : P.Has memSysCode) (hU : Updates P lno lend b) (h : Metered w k) (hd : d < 2 ^ 256) (hn : n < 2 ^ 256)
    (hle : n ≠ 0 → 3 + 3 * wordsFor n + w.growth (wordsFor (d + n)) ≤ G)
    (h0 : n = 0 → G = 3 ∧ ok ∧ Q s w)
    (hQ : n ≠ 0 → k / 2 ^ 192 + (3 + 3 * wordsFor n + w.growth (wordsFor (d + n))) ≤ w.gasLimit → d + n ≤ 50000000 →
      Served P (exec P b ((k + (3 + 3 * wordsFor n + w.growth (wordsFor (d + n))) * 2 ^ 192) :: d :: r :: n :: s)
        (w.grow (wordsFor (d + n)))) w k G ok Q) :
    Served P (exec P (copyHead lno lend) (k :: d :: r :: n :: s) w) w k G ok Q := by
  rw [copyHead, m_wcopy_charge_gas]
  by_cases hz : n = 0
  · obtain ⟨rfl, hok, hQ0⟩ := h0 hz
    subst hz
    kexec [ne_eq, not_true, if_false]
    refine .of (.enter hP (l := "wcopy_empty") (c := b_wcopy_empty) (by simp [memSysCode]) (.refl _)) ?_
    rw [b_wcopy_empty, exec_charge_gas h.ctx (h.serving.room (by omega))]
    by_cases hg : k / 2 ^ 192 + 3 ≤ w.gasLimit
    · rw [if_pos hg]
      kexec []
      exact .exit hg hok (.refl _) hQ0
    · rw [if_neg hg]
      exact .fault fun h => hg h.1
  have hle := hle hz
  have hQ := hQ hz
  by_cases hs : n ≤ 50000000
  · have hw : wordsFor n ≤ 1562502 := by simp only [wordsFor]; omega
    kexec [ne_eq, hz, not_false_eq_true, if_true]
    rw [exec_num_words (by omega)]
    kexec [m_mul_const]
    rw [wmul_small (by omega), wadd_small (by omega), Nat.add_comm _ 3,
      exec_charge_gas h.ctx (h.serving.room (by omega))]
    by_cases hg : k / 2 ^ 192 + (3 + 3 * wordsFor n) ≤ w.gasLimit
    · rw [if_pos hg]
      kexec []
      rw [exec_add_or_fault hd hn]
      by_cases hs2 : d + n ≤ 50000000
      · rw [if_pos (by omega)]
        kexec []
        have hw2 : wordsFor (d + n) ≤ 1562502 := by simp only [wordsFor]; omega
        rw [exec_reasonable, if_pos hs2, exec_num_words (by omega)]
        have hk : (k + (3 + 3 * wordsFor n) * 2 ^ 192) / 2 ^ 192 = k / 2 ^ 192 + (3 + 3 * wordsFor n) := by omega
        have h' : Metered w (k + (3 + 3 * wordsFor n) * 2 ^ 192) :=
          ⟨h.ctx, by omega, h.limit, by have := h.paid; omega⟩
        refine .of (run_update hU h' hw2) ?_
        rw [hk, Nat.add_assoc (k / 2 ^ 192), Nat.add_assoc k, ← Nat.add_mul]
        by_cases hg2 : k / 2 ^ 192 + (3 + 3 * wordsFor n + w.growth (wordsFor (d + n))) ≤ w.gasLimit
        · rw [if_pos hg2]
          exact hQ hg2 hs2
        · rw [if_neg hg2]
          exact .fault fun h => by omega
      · have hf : ¬ (k / 2 ^ 192 + G ≤ w.gasLimit ∧ ok) := fun h' => by
          have := h.unreasonable (n := wordsFor (d + n)) (by simp only [wordsFor]; omega)
          omega
        by_cases ho : d + n < 2 ^ 256
        · rw [if_pos ho]
          kexec []
          rw [exec_reasonable, if_neg hs2]
          exact .fault hf
        · rw [if_neg ho]
          exact .fault hf
    · rw [if_neg hg]
      exact .fault fun h => by omega
  · have hf : ¬ (k / 2 ^ 192 + G ≤ w.gasLimit ∧ ok) := fun h' => by
      have := h.unreasonable (n := wordsFor (d + n)) (by simp only [wordsFor]; omega)
      omega
    kexec [ne_eq, hz, not_false_eq_true, if_true, m_num_bytes_to_num_words, m_add_const, m_shr_const, m_mul_const]
    generalize wadd _ 3 = g
    obtain ⟨k', hk | hk⟩ := exec_charge_any (P := P) (w := w) (g := g) (k := k) (s := d :: r :: n :: s)
      (c := STK 4 [.e 1, .e 3, .e 0, .e 1, .e 2, .e 3] ::
        (m_add_or_fault ++ DUP 1 :: (m_ensure_reasonable_offset ++ (I.push (.lit 31) :: ADD :: I.push (.lit 5) :: SHR :: updMem lno lend))))
    · rw [hk]
      kexec []
      rw [exec_add_or_fault hd hn]
      by_cases ho : d + n < 2 ^ 256
      · rw [if_pos ho]
        kexec []
        rw [exec_reasonable, if_neg (by omega)]
        exact .fault hf
      · rw [if_neg ho]
        exact .fault hf
    · rw [hk]
      exact .fault hf

theorem growth_max {x y : Nat} : w.growth (max x y) = w.growth x + (w.grow x).growth y := by
  simp only [World.growth, grow_words, ← Nat.max_assoc]
  have h1 := memCost_mono (Nat.le_max_left w.memWords x)
  have h2 := memCost_mono (Nat.le_max_left (max w.memWords x) y)
  omega

theorem grow_grow {x y : Nat} : (w.grow x).grow y = w.grow (max x y) := by
  have e : (w.grow x).grow y = (w.grow x).set (w.ctx * 2 ^ 64 + 0x60000000a) (max w.memWords (max x y)) := by
    rw [World.grow, grow_ctx, grow_words, Nat.max_assoc]
  rw [e, World.grow, World.grow]
  generalize w.ctx * 2 ^ 64 + 0x60000000a = A
  refine World.mem_ext (fun a => ?_) rfl rfl
  simp only [set_mem]
  split <;> rfl

theorem copy_self {d : Nat} : w.copy d d n = w := by
  refine World.mem_ext (fun a => ?_) rfl rfl
  rw [copy_mem]
  split
  · congr 1; omega
  · rfl

/-- Memory after `%wcopy`. -/
theorem memAfter_wcopy {c : Prop} [Decidable c] {q d r m : Nat} (hq : q ≤ 0x400000000) (hq2 : 0x300000000 ≤ q)
    (hd : d + n ≤ 2 ^ 32) (hq3 : q % 2 ^ 32 = 0) (hr : c → r + n ≤ 2 ^ 32) :
    MemAfter w (if c then (w.grow m).copy (w.ctx * 2 ^ 64 + 0x200000000 + d) (w.ctx * 2 ^ 64 + q + r) n
      else (w.grow m).clear (w.ctx * 2 ^ 64 + 0x200000000 + d) n) (max w.memWords m) fun j =>
      if d ≤ j ∧ j < d + n then if c then w.mem (w.ctx * 2 ^ 64 + q + (r + (j - d))) else 0 else w.memByte j := by
  refine memAfter_write (f := fun i => if c then w.mem (w.ctx * 2 ^ 64 + q + (r + i)) else 0) hd ?_ ?_ (fun i hi => ?_) (fun a ha => ?_)
  · split
    · rw [copy_ctx, grow_ctx]
    · rw [clear_ctx, grow_ctx]
  · split
    · rw [copy_inp, grow_inp]
    · rw [clear_inp, grow_inp]
  · split
    · rw [copy_mem, if_pos (by omega), Nat.add_sub_cancel_left, Nat.add_assoc, Nat.add_assoc _ q]
      rename_i hc
      have := hr hc
      exact grow_cell (by omega) (by omega)
    · rw [clear_mem, if_pos (by omega)]
  · split
    · rw [copy_mem, if_neg ha]
    · rw [clear_mem, if_neg ha]

section
variable (hP : P.Has memSysCode) (hC : P.Copies)
include hP hC

/-- `asm/memory/syscalls.asm:133-141`. -/
theorem run_within {b d r : Nat} (hc : w.ctx < 2 ^ 32) (hb : b < 2 ^ 97) (hr : r < 2 ^ 32)
    (hD : Span (w.ctx * 2 ^ 64 + 0x200000000 + d) n) (hd : d < 2 ^ 32) (hS : Span (b + r) n)
    (hor : w.ctx * 2 ^ 64 + 0x200000000 + d ≤ b + r ∨ b + r + n ≤ w.ctx * 2 ^ 64 + 0x200000000 + d ∨ n ≤ 32)
    (hB : ∀ i < n, w.mem (b + r + i) < 256) :
    Reaches P (.goto (P.addr "wcopy_within_bounds") (b :: k :: d :: r :: n :: s) w)
      (.exit k s (w.copy (w.ctx * 2 ^ 64 + 0x200000000 + d) (b + r) n)) := by
  enter hP in memSysCode
  rw [b_wcopy_within_bounds]
  kexec [m_build_address]
  rw [wadd_small (a := b) (by omega), build_addr hc (by omega) (by omega)]
  refine .trans (run_memcpy_bytes hC n _ _ w hD hS hor hB) ?_
  enter hP in memSysCode
  rw [b_wcopy_after]
  kexec []
  exact .refl _

/-- `asm/memory/syscalls.asm:161-168`. -/
theorem run_beyond {d r : Nat} (hc : w.ctx < 2 ^ 32) (hD : Span (w.ctx * 2 ^ 64 + 0x200000000 + d) n) (hd : d < 2 ^ 32) :
    Reaches P (.goto (P.addr "wcopy_large_offset") (k :: d :: r :: n :: s) w)
      (.exit k s (w.clear (w.ctx * 2 ^ 64 + 0x200000000 + d) n)) := by
  enter hP in memSysCode
  rw [b_wcopy_large_offset]
  kexec [m_build_address]
  rw [build_addr hc (by omega) (by omega)]
  refine .trans (run_memset hC n _ w hD) ?_
  enter hP in memSysCode
  rw [b_wcopy_after]
  kexec []
  exact .refl _

/-- `asm/memory/syscalls.asm:88-107`, the rest of `%wcopy`. -/
theorem run_wcopy {f q d r : Nat} (hc : w.ctx < 2 ^ 32) (hf : f < 39 * 2 ^ 32) (hq : q % 2 ^ 32 = 0) (hq' : q < 39 * 2 ^ 32)
    (hq2 : 0x300000000 ≤ q) (hsz : w.mem (w.ctx * 2 ^ 64 + f) < 2 ^ 31) (hdn : d + n ≤ 50000000)
    (hB : r ≤ w.mem (w.ctx * 2 ^ 64 + f) → ∀ i < n, w.mem (w.ctx * 2 ^ 64 + q + r + i) < 256) :
    Reaches P (exec P (m_mload_context_metadata (.lit f) ++ DUP 4 :: GT ::
      (m_jumpi (.lab "wcopy_large_offset") ++ DUP 4 :: DUP 4 :: (m_check_u32_add ++ GET_CONTEXT ::
      PUSH q :: (m_build_address_no_offset ++ (m_jump (.lab "wcopy_within_bounds") ++ []))))) (k :: d :: r :: n :: s) w)
      (.exit k s (if r ≤ w.mem (w.ctx * 2 ^ 64 + f) then w.copy (w.ctx * 2 ^ 64 + 0x200000000 + d) (w.ctx * 2 ^ 64 + q + r) n
        else w.clear (w.ctx * 2 ^ 64 + 0x200000000 + d) n)) := by
  have hD : Span (w.ctx * 2 ^ 64 + 0x200000000 + d) n := span_at hc (by omega) (by omega) (by omega) (by omega)
  rw [exec_load_ctx hc hf]
  kexec []
  by_cases hr : r ≤ w.mem (w.ctx * 2 ^ 64 + f)
  · rw [if_pos hr, if_pos hr, exec_check_u32 (by omega) (by omega) (by omega)]
    kexec [m_build_address_no_offset]
    rw [wadd_small (by omega), Nat.add_comm q]
    exact run_within hP hC hc (by omega) (by omega) hD (by omega) (span_at hc hq hq' (by omega) (by omega)) (.inl (by omega)) (hB hr)
  · rw [if_neg hr, if_neg hr]
    exact run_beyond hP hC hc hD (by omega)

omit hC in
theorem run_code_after {x : Nat} (hx : w.ctx * 2 ^ 64 = x) :
    Reaches P (.goto (P.addr "codecopy_after") (x :: k :: s) w) (.exit k s w) := by
  enter hP in memSysCode
  rw [b_codecopy_after]
  kexec [hx, ne_eq, not_true, if_false]
  enter hP in memSysCode
  rw [b_codecopy_no_prune]
  kexec []
  exact .refl _

/-- `asm/memory/syscalls.asm:150-159`. -/
theorem run_code_beyond {d r t x : Nat} (hx : w.ctx * 2 ^ 64 = x) (hc : w.ctx < 2 ^ 32) (hD : Span (w.ctx * 2 ^ 64 + 0x200000000 + d) n) (hd : d < 2 ^ 32) :
    Reaches P (.goto (P.addr "codecopy_large_offset") (t :: x :: k :: d :: r :: n :: s) w)
      (.exit k s (w.clear (w.ctx * 2 ^ 64 + 0x200000000 + d) n)) := by
  enter hP in memSysCode
  rw [b_codecopy_large_offset]
  kexec [m_build_address]
  rw [build_addr hc (by omega) (by omega)]
  refine .trans (run_memset hC n _ w hD) ?_
  exact run_code_after hP (by rw [clear_ctx]; exact hx)

/-- `asm/memory/syscalls.asm:121-131`. -/
theorem run_code_within {d r t x : Nat} (hx : w.ctx * 2 ^ 64 = x) (hc : w.ctx < 2 ^ 32) (hr : r + n < 2 ^ 32)
    (hD : Span (w.ctx * 2 ^ 64 + 0x200000000 + d) n) (hd : d < 2 ^ 32) 
    (hB : ∀ i < n, w.mem (w.ctx * 2 ^ 64 + 0 + r + i) < 256) :
    Reaches P (.goto (P.addr "codecopy_within_bounds") (t :: 0 :: x :: k :: d :: r :: n :: s) w)
      (.exit k s (w.copy (w.ctx * 2 ^ 64 + 0x200000000 + d) (w.ctx * 2 ^ 64 + 0 + r) n)) := by
  enter hP in memSysCode
  rw [b_codecopy_within_bounds]
  kexec [m_build_address]
  rw [show wadd (wadd x 0) r = w.ctx * 2 ^ 64 + 0 + r by rw [← hx]; exact build_addr hc (by omega) (by omega),
    build_addr hc (by omega) (by omega)]
  refine .trans (run_memcpy_bytes hC n _ _ w hD (span_at hc (by omega) (by omega) (by omega) (by omega)) (by omega) hB) ?_
  exact run_code_after hP (by rw [copy_ctx]; exact hx)

/-- `asm/memory/syscalls.asm:354-392`. -/
theorem run_codecopy_tail {d r t : Nat} (hc : w.ctx < 2 ^ 32) (ht : t < 2 ^ 31) (hr : r < 2 ^ 256) (hdn : d + n ≤ 50000000)
    (hB : ∀ i < t, w.mem (w.ctx * 2 ^ 64 + 0 + i) < 256) :
    ∃ w', Reaches P (exec P (m_codecopy_after_checks (.lit 0) ++ []) (t :: w.ctx * 2 ^ 64 :: k :: d :: r :: n :: s) w) (.exit k s w') ∧
      w'.ctx = w.ctx ∧ w'.inp = w.inp ∧
      (∀ i < n, w'.mem (w.ctx * 2 ^ 64 + 0x200000000 + d + i) = if r + i < t then w.mem (w.ctx * 2 ^ 64 + (r + i)) else 0) ∧
      ∀ a, ¬ (w.ctx * 2 ^ 64 + 0x200000000 + d ≤ a ∧ a < w.ctx * 2 ^ 64 + 0x200000000 + d + n) → w'.mem a = w.mem a := by
  have hD : Span (w.ctx * 2 ^ 64 + 0x200000000 + d) n := span_at hc (by omega) (by omega) (by omega) (by omega)
  rw [m_codecopy_after_checks]
  kexec []
  by_cases h1 : r ≤ t
  · rw [if_pos h1, exec_add_or_fault (by omega) (by omega), if_pos (by omega)]
    kexec []
    by_cases h2 : r + n < t
    · rw [if_neg (by omega)]
      refine ⟨_, run_code_within hP hC rfl hc (by omega) hD (by omega) (fun i hi => ?_), copy_ctx, copy_inp, fun i hi => ?_, fun a ha => ?_⟩
      · rw [Nat.add_assoc _ r i]; exact hB _ (by omega)
      · rw [copy_mem, if_pos (by omega), if_pos (by omega), Nat.add_sub_cancel_left, Nat.add_zero, Nat.add_assoc _ r i]
      · rw [copy_mem, if_neg ha]
    · rw [if_pos (by omega)]
      kexec [m_build_address]
      have e1 : wsub (wadd r n) t = r + n - t := by
        rw [wadd_small (by omega)]; exact wsub_small (by omega) (by omega)
      have e2 : wsub n (r + n - t) = t - r := by rw [wsub_small (by omega) (by omega)]; omega
      rw [e1, e2, wadd_small (a := d) (by omega), build_addr hc (by omega) (by omega), build_addr hc (by omega) (by omega)]
      have hr := run_memcpy_bytes (ret := P.addr "codecopy_large_offset")
        (s := (t - r) :: w.ctx * 2 ^ 64 :: k :: (d + (t - r)) :: r :: (r + n - t) :: s) hC (t - r)
        (w.ctx * 2 ^ 64 + 0x200000000 + d) (w.ctx * 2 ^ 64 + 0 + r) w (hD.le (by omega))
        (span_at hc (by omega) (by omega) (by omega) (by omega)) (by omega)
        (fun i hi => by rw [Nat.add_assoc _ r i]; exact hB _ (by omega))
      obtain ⟨w2, hw2⟩ : ∃ w2, w2 = w.copy (w.ctx * 2 ^ 64 + 0x200000000 + d) (w.ctx * 2 ^ 64 + 0 + r) (t - r) := ⟨_, rfl⟩
      have hctx : w2.ctx = w.ctx := by rw [hw2, copy_ctx]
      have hinp : w2.inp = w.inp := by rw [hw2, copy_inp]
      rw [← hw2] at hr
      have hr2 := run_code_beyond (w := w2) (n := r + n - t) (d := d + (t - r)) (r := r) (t := t - r) (k := k) (s := s)
        (x := w.ctx * 2 ^ 64) hP hC (by rw [hctx])
        (by rw [hctx]; exact hc) (by rw [hctx]; exact span_at hc (by omega) (by omega) (by omega) (by omega)) (by omega)
      rw [hctx] at hr2
      refine ⟨_, hr.trans hr2, by rw [clear_ctx, hctx], by rw [clear_inp, hinp], fun i hi => ?_, fun a ha => ?_⟩
      · rw [clear_mem]
        by_cases hi2 : r + i < t
        · rw [if_neg (by omega), if_pos hi2, hw2, copy_mem, if_pos (by omega), Nat.add_sub_cancel_left, Nat.add_zero,
            Nat.add_assoc _ r i]
        · rw [if_pos (by omega), if_neg hi2]
      · rw [clear_mem, if_neg (by omega), hw2, copy_mem, if_neg (by omega)]
  · rw [if_neg h1]
    refine ⟨_, run_code_beyond hP hC rfl hc hD (by omega), clear_ctx, clear_inp, fun i hi => ?_, fun a ha => ?_⟩
    · rw [clear_mem, if_pos (by omega), if_neg (by omega)]
    · rw [clear_mem, if_neg ha]

/-- `asm/memory/syscalls.asm:207-220`. -/
theorem run_codecopy {d r : Nat} (h : Metered w k) (hd : d < 2 ^ 256) (hr : r < 2 ^ 256) (hn : n < 2 ^ 256)
    (hsz : w.mem (w.ctx * 2 ^ 64 + 0x600000005) < 2 ^ 31)
    (hB : ∀ i < w.mem (w.ctx * 2 ^ 64 + 0x600000005), w.mem (w.ctx * 2 ^ 64 + i) < 256) :
    Served P (.goto (P.addr "sys_codecopy") (k :: d :: r :: n :: s) w) w k
      (3 + 3 * wordsFor n + if n = 0 then 0 else w.growth (wordsFor (d + n))) True fun s' w' =>
      s' = s ∧ MemAfter w w' (max w.memWords (if n = 0 then 0 else wordsFor (d + n))) fun j =>
        if d ≤ j ∧ j < d + n then
          if r + (j - d) < w.mem (w.ctx * 2 ^ 64 + 0x600000005) then w.mem (w.ctx * 2 ^ 64 + (r + (j - d))) else 0
        else w.memByte j := by
  refine .of (.enter hP (l := "sys_codecopy") (c := b_sys_codecopy) (by simp [memSysCode]) (.refl _)) ?_
  refine run_head (lno := "syscalls@15.no_update") (lend := "syscalls@15.end") hP (has_upd15 hP) h hd hn ?_ ?_ ?_
  · intro hz; rw [if_neg hz]; exact Nat.le_refl _
  · intro hz
    subst hz
    exact ⟨rfl, trivial, rfl, memAfter_none fun j hj => if_neg (by omega)⟩
  · intro hz hg hdn
    rw [if_neg hz, if_neg hz]
    have hm : ∀ f, f ≠ 0x60000000a → f < 2 ^ 64 → (w.grow (wordsFor (d + n))).mem (w.ctx * 2 ^ 64 + f) = w.mem (w.ctx * 2 ^ 64 + f) :=
      fun f hf _ => grow_mem (by omega)
    rw [b_syscalls_15_end, exec_getCtx, exec_load_ctx (w := w.grow _) h.ctx (by omega), grow_ctx, hm _ (by omega) (by omega)]
    obtain ⟨w', h1, h2, h3, h4, h5⟩ := run_codecopy_tail (s := s) (w := w.grow (wordsFor (d + n)))
      (k := k + (3 + 3 * wordsFor n + w.growth (wordsFor (d + n))) * 2 ^ 192) (d := d) hP hC h.ctx hsz hr hdn
      (fun i hi => by rw [grow_ctx, Nat.add_zero, hm _ (by omega) (by omega)]; exact hB i hi)
    rw [grow_ctx] at h1 h2 h4 h5
    refine .exit hg trivial h1 ⟨rfl, memAfter_write (f := fun i => if r + i < w.mem (w.ctx * 2 ^ 64 + 0x600000005) then
      w.mem (w.ctx * 2 ^ 64 + (r + i)) else 0) (by omega) h2 h3 (fun i hi => ?_) h5⟩
    rw [h4 i hi]
    refine ite_congr rfl (fun hlt => hm _ (by omega) (by omega)) (fun _ => rfl)

/-- `asm/memory/syscalls.asm:194-195`. -/
theorem run_calldatacopy {d r : Nat} (h : Metered w k) (hd : d < 2 ^ 256) (hn : n < 2 ^ 256)
    (hsz : w.mem (w.ctx * 2 ^ 64 + 0x600000002) < 2 ^ 31)
    (hB : ∀ i < 2 ^ 32, w.mem (w.ctx * 2 ^ 64 + 0x300000000 + i) < 256) :
    Served P (.goto (P.addr "sys_calldatacopy") (k :: d :: r :: n :: s) w) w k
      (3 + 3 * wordsFor n + if n = 0 then 0 else w.growth (wordsFor (d + n))) True fun s' w' =>
      s' = s ∧ MemAfter w w' (max w.memWords (if n = 0 then 0 else wordsFor (d + n))) fun j =>
        if d ≤ j ∧ j < d + n then
          if r ≤ w.mem (w.ctx * 2 ^ 64 + 0x600000002) then w.mem (w.ctx * 2 ^ 64 + 0x300000000 + (r + (j - d))) else 0
        else w.memByte j := by
  refine .of (.enter hP (l := "sys_calldatacopy") (c := b_sys_calldatacopy) (by simp [memSysCode]) (.refl _)) ?_
  refine run_head (lno := "syscalls@10.no_update") (lend := "syscalls@10.end") hP (has_upd10 hP) h hd hn ?_ ?_ ?_
  · intro hz; rw [if_neg hz]; exact Nat.le_refl _
  · intro hz
    subst hz
    exact ⟨rfl, trivial, rfl, memAfter_none fun j hj => if_neg (by omega)⟩
  · intro hz hg hdn
    rw [if_neg hz, if_neg hz]
    refine .exit hg trivial (run_wcopy (w := w.grow (wordsFor (d + n))) hP hC h.ctx (by omega) (by omega) (by omega) (by omega)
      (by rw [grow_ctx, grow_cell (by omega) (by omega)]; exact hsz) hdn ?_) ⟨rfl, ?_⟩
    · rw [grow_ctx, grow_cell (by omega) (by omega)]
      intro hr i hi
      rw [Nat.add_assoc, Nat.add_assoc, grow_cell (by omega) (by omega), ← Nat.add_assoc]
      exact hB _ (by omega)
    · rw [grow_ctx, grow_cell (by omega) (by omega)]
      exact memAfter_wcopy (q := 0x300000000) (by omega) (by omega) (by omega) (by omega) (by omega)

/-- `asm/memory/syscalls.asm:199-203`. -/
theorem run_returndatacopy {d r : Nat} (h : Metered w k) (hd : d < 2 ^ 256) (hr : r < 2 ^ 256) (hn : n < 2 ^ 256)
    (hsz : w.mem (w.ctx * 2 ^ 64 + 0x600000003) < 2 ^ 31)
    (hB : ∀ i < w.mem (w.ctx * 2 ^ 64 + 0x600000003), w.mem (w.ctx * 2 ^ 64 + 0x400000000 + i) < 256) :
    Served P (.goto (P.addr "sys_returndatacopy") (k :: d :: r :: n :: s) w) w k
      (3 + 3 * wordsFor n + if n = 0 then 0 else w.growth (wordsFor (d + n)))
      (r + n ≤ w.mem (w.ctx * 2 ^ 64 + 0x600000003)) fun s' w' =>
      s' = s ∧ MemAfter w w' (max w.memWords (if n = 0 then 0 else wordsFor (d + n))) fun j =>
        if d ≤ j ∧ j < d + n then w.mem (w.ctx * 2 ^ 64 + 0x400000000 + (r + (j - d)))
        else w.memByte j := by
  refine .of (.enter hP (l := "sys_returndatacopy") (c := b_sys_returndatacopy) (by simp [memSysCode]) (.refl _)) ?_
  rw [b_sys_returndatacopy]
  kexec []
  rw [exec_add_or_fault hr hn]
  by_cases hsum : r + n < 2 ^ 256
  · rw [if_pos hsum, exec_load_ctx h.ctx (by omega)]
    kexec []
    by_cases hok : r + n ≤ w.mem (w.ctx * 2 ^ 64 + 0x600000003)
    · rw [if_pos hok]
      refine run_head (lno := "syscalls@13.no_update") (lend := "syscalls@13.end") hP (has_upd13 hP) h hd hn ?_ ?_ ?_
      · intro hz; rw [if_neg hz]; exact Nat.le_refl _
      · intro hz
        subst hz
        exact ⟨rfl, hok, rfl, memAfter_none fun j hj => if_neg (by omega)⟩
      · intro hz hg hdn
        rw [if_neg hz, if_neg hz]
        refine .exit hg hok (run_wcopy (w := w.grow (wordsFor (d + n))) hP hC h.ctx (by omega) (by omega) (by omega) (by omega)
          (by rw [grow_ctx, grow_cell (by omega) (by omega)]; exact hsz) hdn ?_) ⟨rfl, ?_⟩
        · rw [grow_ctx, grow_cell (by omega) (by omega)]
          intro hr i hi
          rw [Nat.add_assoc, Nat.add_assoc, grow_cell (by omega) (by omega), ← Nat.add_assoc]
          exact hB _ (by omega)
        · rw [grow_ctx, grow_cell (by omega) (by omega)]
          have := memAfter_wcopy (w := w) (c := r ≤ w.mem (w.ctx * 2 ^ 64 + 0x600000003)) (q := 0x400000000) (d := d) (r := r)
            (n := n) (m := wordsFor (d + n)) (by omega) (by omega) (by omega) (by omega) (by omega)
          have hrs : r ≤ w.mem (w.ctx * 2 ^ 64 + 0x600000003) := by omega
          rw [if_pos hrs] at this ⊢
          simp only [if_pos hrs] at this
          exact this
    · rw [if_neg hok]
      exact .fault fun h => hok h.2
  · rw [if_neg hsum]
    exact .fault fun h => by omega

/-- `asm/memory/syscalls.asm:322-344`. -/
theorem run_overlap {d r : Nat} (hc : w.ctx < 2 ^ 32) (hdr : r ≤ d) (hd : d + n ≤ 2 ^ 32) (hr : d < 2 ^ 32)
    (hB : ∀ i < n, w.mem (w.ctx * 2 ^ 64 + 0x200000000 + r + i) < 256) :
    Reaches P (.goto (P.addr "mcopy_with_overlap") (min 32 n :: (w.ctx * 2 ^ 64 + 0x200000000) :: k :: d :: r :: n :: s) w)
      (.exit k s (w.copy (w.ctx * 2 ^ 64 + 0x200000000 + d) (w.ctx * 2 ^ 64 + 0x200000000 + r) n)) := by
  enter hP in memSysCode
  rw [b_mcopy_with_overlap]
  kexec []
  rw [wadd_small (a := r) (by omega), wadd_small (a := n) (b := d) (by omega),
    wsub_small (a := r + n) (by omega) (by omega), wsub_small (a := n + d) (by omega) (by omega), wadd_small (by omega),
    wadd_small (by omega)]
  rw [show w.ctx * 2 ^ 64 + 0x200000000 + (n + d - min 32 n) = w.ctx * 2 ^ 64 + 0x200000000 + d + (n - min 32 n) by omega,
    show r + n - min 32 n + (w.ctx * 2 ^ 64 + 0x200000000) = w.ctx * 2 ^ 64 + 0x200000000 + r + (n - min 32 n) by omega]
  refine .trans (run_memcpy_back hC n _ _ w (span_at hc (by omega) (by omega) (by omega) (by omega))
    (span_at hc (by omega) (by omega) (by omega) (by omega)) (by omega) hB) ?_
  enter hP in memSysCode
  rw [b_wcopy_after]
  kexec []
  exact .refl _

/-- `asm/memory/syscalls.asm:283-320`. -/
theorem run_mcopy_tail {d r : Nat} (hc : w.ctx < 2 ^ 32) (hd : d + n ≤ 50000000) (hr : r + n ≤ 50000000)
    (hB : ∀ i < n, w.mem (w.ctx * 2 ^ 64 + 0x200000000 + r + i) < 256) :
    Reaches P (exec P b_syscalls_22_end (k :: d :: r :: n :: s) w)
      (.exit k s (w.copy (w.ctx * 2 ^ 64 + 0x200000000 + d) (w.ctx * 2 ^ 64 + 0x200000000 + r) n)) := by
  have hD : Span (w.ctx * 2 ^ 64 + 0x200000000 + d) n := span_at hc (by omega) (by omega) (by omega) (by omega)
  have hS : Span (w.ctx * 2 ^ 64 + 0x200000000 + r) n := span_at hc (by omega) (by omega) (by omega) (by omega)
  rw [b_syscalls_22_end]
  kexec [m_build_address_no_offset]
  by_cases he : d = r
  · rw [if_neg (by simpa using he)]
    enter hP in memSysCode
    rw [b_mcopy_empty]
    kexec []
    rw [he, copy_self]
    exact .refl _
  rw [if_pos he, wadd_small (by omega), Nat.add_comm 0x200000000]
  by_cases h1 : d < r
  · rw [if_neg (by omega)]
    exact run_within hP hC hc (by omega) (by omega) hD (by omega) hS (.inl (by omega)) hB
  rw [if_pos (by omega), exec_min (by omega) (by omega)]
  kexec []
  rw [wadd_small (by omega)]
  by_cases h2 : 32 < n ∧ d < n + r
  · rw [if_neg (by
      simp only [wmul, wgt, wlt]; rw [if_pos (show n > min 32 n by omega), if_pos h2.2]; decide)]
    exact run_overlap hP hC hc (by omega) (by omega) (by omega) hB
  · rw [if_pos (by
      simp only [wmul, wgt, wlt]
      by_cases h3 : 32 < n
      · rw [if_neg (show ¬ d < n + r by omega)]; omega
      · rw [if_neg (show ¬ n > min 32 n by omega)]; omega)]
    exact run_within hP hC hc (by omega) (by omega) hD (by omega) hS (by omega) hB

/-- `asm/memory/syscalls.asm:267-344`. -/
theorem run_mcopy {d r : Nat} (h : Metered w k) (hd : d < 2 ^ 256) (hr : r < 2 ^ 256) (hn : n < 2 ^ 256)
    (hB : ∀ j < 2 ^ 32, w.memByte j < 256) :
    Served P (.goto (P.addr "sys_mcopy") (k :: d :: r :: n :: s) w) w k
      (3 + 3 * wordsFor n + if n = 0 then 0 else w.growth (wordsFor (max d r + n))) True fun s' w' =>
      s' = s ∧ MemAfter w w' (max w.memWords (if n = 0 then 0 else wordsFor (max d r + n))) fun j =>
        if d ≤ j ∧ j < d + n then w.memByte (r + (j - d)) else w.memByte j := by
  have hmax : wordsFor (max d r + n) = max (wordsFor (d + n)) (wordsFor (r + n)) := by
    simp only [wordsFor]; omega
  refine .of (.enter hP (l := "sys_mcopy") (c := b_sys_mcopy) (by simp [memSysCode]) (.refl _)) ?_
  refine run_head (lno := "syscalls@20.no_update") (lend := "syscalls@20.end") hP (has_upd20 hP) h hd hn ?_ ?_ ?_
  · intro hz
    rw [if_neg hz, hmax, growth_max]
    omega
  · intro hz
    subst hz
    exact ⟨rfl, trivial, rfl, memAfter_none fun j hj => if_neg (by omega)⟩
  · intro hz hg hdn
    rw [if_neg hz, if_neg hz, hmax, growth_max, ← Nat.add_assoc]
    generalize hG : 3 + 3 * wordsFor n + w.growth (wordsFor (d + n)) = G at hg ⊢
    have hpaid : memCost (w.grow (wordsFor (d + n))).memWords ≤ k / 2 ^ 192 + G := by
      have h1 := h.paid
      have h2 := memCost_mono (Nat.le_max_left w.memWords (wordsFor (d + n)))
      rw [grow_words]
      simp only [World.growth] at hG
      omega
    have h' : Metered (w.grow (wordsFor (d + n))) (k + G * 2 ^ 192) :=
      ⟨h.ctx, by rw [grow_gasLimit]; omega, by rw [grow_gasLimit]; exact h.limit, by
        rw [show (k + G * 2 ^ 192) / 2 ^ 192 = k / 2 ^ 192 + G by omega]; exact hpaid⟩
    rw [b_syscalls_20_end]
    kexec []
    rw [exec_add_or_fault hr hn]
    by_cases hs2 : r + n ≤ 50000000
    · rw [if_pos (by omega)]
      kexec []
      have hw2 : wordsFor (r + n) ≤ 1562502 := by simp only [wordsFor]; omega
      rw [exec_reasonable, if_pos hs2, exec_num_words (by omega)]
      refine .of (run_update (has_upd22 hP) h' hw2) ?_
      rw [grow_gasLimit, grow_grow, show (k + G * 2 ^ 192) / 2 ^ 192 = k / 2 ^ 192 + G by omega, Nat.add_assoc (k / 2 ^ 192),
        Nat.add_assoc k, ← Nat.add_mul]
      by_cases hg2 : k / 2 ^ 192 + (G + (w.grow (wordsFor (d + n))).growth (wordsFor (r + n))) ≤ w.gasLimit
      · rw [if_pos hg2]
        generalize max (wordsFor (d + n)) (wordsFor (r + n)) = m
        generalize G + (w.grow (wordsFor (d + n))).growth (wordsFor (r + n)) = G at hg2 ⊢
        have hby : ∀ i < n, (w.grow m).mem (w.ctx * 2 ^ 64 + 0x200000000 + r + i) = w.memByte (r + i) := by
          intro i hi
          rw [Nat.add_assoc _ r i]
          exact grow_byte (j := r + i) (by omega)
        have hrun := run_mcopy_tail (w := w.grow m) (k := k + G * 2 ^ 192) (s := s) hP hC h.ctx hdn hs2 (fun i hi => by
          rw [grow_ctx, hby i hi]; exact hB _ (by omega))
        rw [grow_ctx] at hrun
        refine .exit hg2 trivial hrun ⟨rfl, memAfter_write (f := fun i => w.memByte (r + i)) (by omega) ?_ ?_ (fun i hi => ?_) (fun a ha => ?_)⟩
        · rw [copy_ctx, grow_ctx]
        · rw [copy_inp, grow_inp]
        · rw [copy_mem, if_pos (by omega), Nat.add_sub_cancel_left, hby i hi]
        · rw [copy_mem, if_neg ha]
      · rw [if_neg hg2]
        exact .fault fun h => by omega
    · have hf : ¬ (k / 2 ^ 192 + (G + (w.grow (wordsFor (d + n))).growth (wordsFor (r + n))) ≤ w.gasLimit ∧ True) := fun h'' => by
        have := h'.unreasonable (n := wordsFor (r + n)) (by simp only [wordsFor]; omega)
        rw [grow_gasLimit] at this
        omega
      by_cases ho : r + n < 2 ^ 256
      · rw [if_pos ho]
        kexec []
        rw [exec_reasonable, if_neg hs2]
        exact .fault hf
      · rw [if_neg ho]
        exact .fault hf

end

end Verif.Kasm
