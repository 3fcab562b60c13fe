import Verif.Kasm.ListClaims
import Verif.Kasm.Copy
import Verif.Kasm.Env
import Verif.Kasm.Code.StateRead

/-! Reading accounts: the key of an account is the hash of its address, and the account is looked up in the list. -/

namespace Verif.Kasm

variable {P : Prog} {c : List I} {S s : List Nat} {w : World} {ret n : Nat} {ps : List Nat} {f : Nat → Option Nat}

/-! ### Hashes of words -/

/-- The last `n` bytes of a word, the most significant one first. -/
def wordBytes (n v : Nat) : List Nat := (List.range n).map fun i => v / 256 ^ (n - 1 - i) % 256

/-- The key of an account (`asm/core/util.asm`, `%addr_to_state_key`). -/
def Prog.addrKey (P : Prog) (a : Nat) : Nat := P.hash (wordBytes 20 a)

/-- The key of a slot (`%slot_to_storage_key`). -/
def Prog.slotKey (P : Prog) (a : Nat) : Nat := P.hash (wordBytes 32 a)

/-- Memory after the bytes of a word were put where they are hashed. -/
def World.scratch (w : World) (n v : Nat) : World := storeBytes w 0x700000000 v n

theorem scratch_ctx {v : Nat} : (w.scratch n v).ctx = w.ctx := storeBytes_ctx ..
theorem scratch_inp {v : Nat} : (w.scratch n v).inp = w.inp := storeBytes_inp ..
theorem scratch_mem {v a : Nat} (h : a < 0x700000000 ∨ 0x700000000 + n ≤ a) : (w.scratch n v).mem a = w.mem a := by
  simp only [World.scratch, storeBytes_mem]; rw [if_neg (by omega)]

theorem scratch_words {v : Nat} (h : Words w) : Words (w.scratch n v) := by
  intro a
  simp only [World.scratch, storeBytes_mem]
  split
  · exact Nat.lt_of_lt_of_le (Nat.mod_lt _ (by omega)) (by omega : 256 ≤ 2 ^ 256)
  · exact h a

theorem bytes_scratch (v : Nat) : bytesAt (w.scratch n v) 0x700000000 n = wordBytes n v := by
  simp only [bytesAt, wordBytes, World.scratch]
  refine List.map_congr_left fun i hi => ?_
  have hi := List.mem_range.1 hi
  rw [storeBytes_mem, if_pos (by omega)]
  simp only [dig]
  rw [Nat.add_sub_cancel_left, Nat.mod_mod]

/-- `%keccak256_word` (`asm/util/keccak.asm:35-47`), after the store. -/
theorem exec_hash_word {v : Nat} (hn : n ≤ 32) :
    exec P (SUB :: KECCAK_GENERAL :: c) ((0x700000000 + n) :: n :: n :: s) (w.scratch n v) =
      exec P c (P.hash (wordBytes n v) :: s) (w.scratch n v) := by
  have hs : SegOk 0x700000000 := by simp only [SegOk]; omega
  have hk : key 0x700000000 = 0x700000000 := by simp only [key]
  rw [exec_bin, wsub_small (by omega) (by omega), Nat.add_sub_cancel]
  simp only [exec]
  rw [if_pos ⟨hs, by omega⟩, hk, bytes_scratch]

/-- The store before it. -/
theorem run_store_word (hP : P.Copies) {v : Nat} (h1 : 1 ≤ n) (hn : n ≤ 32) :
    Reaches P (.goto (P.addr "mstore_unpacking") (0x700000000 :: v :: n :: ret :: s) w)
      (.goto ret ((0x700000000 + n) :: s) (w.scratch n v)) :=
  run_unpacking hP h1 hn ⟨by omega, by simp only [SegOk]; omega, by omega⟩

/-! ### Reading an account -/

/-- The kernel has the routines that read accounts. -/
structure Prog.ReadsState (P : Prog) : Prop where
  copies : P.Copies
  list : P.Has linkedListCode
  read : P.Has stateReadCode

/-- The prover's hint number `i` is the node of the greatest key that is at most `a`, or the start of the list if there is
none. -/
def AccHonest (w : World) (i : Nat) (ps : List Nat) (a : Nat) : Prop :=
  4 * w.inp i ∈ accBase :: ps ∧ (4 * w.inp i = accBase ∨ w.mem (4 * w.inp i) ≤ a) ∧ a < w.mem (w.mem (4 * w.inp i + 3))

/-- The world after an account has been looked up. -/
def World.looked (w : World) (a : Nat) : World := (w.scratch 20 a).next

theorem looked_ctx {a : Nat} : (w.looked a).ctx = w.ctx := scratch_ctx
theorem looked_inp {a i : Nat} : (w.looked a).inp i = w.inp (i + 1) := by
  show (w.scratch 20 a).inp (i + 1) = _
  rw [scratch_inp]
theorem looked_mem {a b : Nat} (h : b < 0x700000000 ∨ 0x700000014 ≤ b) : (w.looked a).mem b = w.mem b :=
  scratch_mem (n := 20) (by omega)
theorem looked_words {a : Nat} (h : Words w) : Words (w.looked a) := scratch_words (n := 20) (v := a) h

theorem scratch_accounts {v : Nat} (hn : n ≤ 32) {m : Nat} (h : AccountsAre w m ps f) :
    AccountsAre (w.scratch n v) m ps f := by
  refine h.congr (scratch_mem (by simp only [accNext]; omega)) fun a h1 h2 => scratch_mem ?_
  simp only [accBase] at *; omega

theorem next_accounts {m : Nat} (h : AccountsAre w m ps f) : AccountsAre w.next m ps f := h

theorem looked_accounts {a : Nat} (h : AccountsAre w n ps f) : AccountsAre (w.looked a) n ps f :=
  next_accounts (scratch_accounts (by omega) h)

theorem linked_bound {p : Nat} (h : AccountsAre w n ps f) (hp : p ∈ accBase :: ps) : accBase ≤ p ∧ p + 4 ≤ accBase + 4 * n :=
  h.1.ptr_bound hp

theorem looked_honest {a i k : Nat} (h : AccountsAre w n ps f) (hi : AccHonest w (i + 1) ps k) :
    AccHonest (w.looked a) i ps k := by
  obtain ⟨h1, h2, h3⟩ := hi
  have hb := h.1.ptr_bound h1
  have hb2 := h.1.ptr_bound (h.1.next_mem h1)
  simp only [AccHonest, looked_inp]
  rw [looked_mem (by simp only [accBase] at *; omega), looked_mem (b := 4 * w.inp (i + 1) + 3) (by simp only [accBase] at *; omega),
    looked_mem (by simp only [accBase] at *; omega)]
  exact ⟨h1, h2, h3⟩

/-- `mpt_read_state_trie` (`asm/mpt/read.asm:4-10`), for a right hint: the pointer to the account's fields, 0 if there is none. -/
theorem run_read_state (hP : P.ReadsState) (hw : Words w) (h : AccountsAre w n ps f) {a : Nat} (ha : P.addrKey a < u256Max)
    (hi : AccHonest w 0 ps (P.addrKey a)) :
    Reaches P (.goto (P.addr "mpt_read_state_trie") (a :: ret :: S) w)
      (.goto ret ((f (P.addrKey a)).getD 0 :: S) (w.looked a)) := by
  enter hP.read in stateReadCode
  rw [b_mpt_read_state_trie]
  kexec []
  refine (run_store_word hP.copies (by omega) (by omega)).trans ?_
  enter hP.read in stateReadCode
  rw [b_read_3_after_mstore, exec_hash_word (by omega)]
  kexec []
  obtain ⟨h1, h2, h3⟩ := hi
  have hb := linked_bound h h1
  have hsc := scratch_accounts (v := a) (n := 20) (by omega) h
  have hm : (w.scratch 20 a).mem (4 * w.inp 0 + 3) = w.mem (4 * w.inp 0 + 3) := scratch_mem (by simp only [accBase] at *; omega)
  have hm' : (w.scratch 20 a).mem (4 * w.inp 0) = w.mem (4 * w.inp 0) := scratch_mem (by simp only [accBase] at *; omega)
  have hb2 := h.1.ptr_bound (h.1.next_mem h1)
  refine (run_search_account_honest hP.list (scratch_words hw) hsc (a := P.addrKey a) ha
    (p := 4 * w.inp 0) (by rw [scratch_inp]) h1 ?_ ?_).trans ?_
  · rw [hm']; exact h2
  · rw [hm, scratch_mem]
    · exact h3
    · simp only [accBase] at *; omega
  enter hP.read in stateReadCode
  rw [b_read_1_after]
  kexec []
  exact .refl _

end Verif.Kasm
