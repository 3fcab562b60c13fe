import Verif.Kasm.Type0Claims
import Verif.Kasm.Code.Router

/-!
How a transaction comes into memory and into the transaction trie: `asm/rlp/read_to_memory.asm` and `asm/transactions/router.asm`.
-/

namespace Verif.Kasm

variable {P : Prog} {S : List Nat} {w w' : World} {ret a n : Nat} {t : LegacyTx}

/-! ### The tape of the prover -/

/-- The 32 bytes of a word, the most significant first. -/
def word32 (v : Nat) : List Nat := (List.range 32).map fun i => dig v (31 - i)

theorem word32_length (v : Nat) : (word32 v).length = 32 := by simp [word32]

theorem word32_bytes (v : Nat) : AllBytes (word32 v) := by
  intro b hb
  obtain ⟨i, -, rfl⟩ := List.mem_map.1 hb
  exact dig_lt _ _

/-- The bytes of the first `n` words of `f`. -/
def tape (f : Nat → Nat) : Nat → List Nat
  | 0 => []
  | n + 1 => word32 (f 0) ++ tape (fun i => f (i + 1)) n

theorem tape_length : ∀ (n : Nat) (f : Nat → Nat), (tape f n).length = 32 * n
  | 0, _ => rfl
  | n + 1, f => by rw [tape, List.length_append, word32_length, tape_length n]; omega

theorem tape_bytes : ∀ (n : Nat) (f : Nat → Nat), AllBytes (tape f n)
  | 0, _ => nofun
  | n + 1, f => by rw [tape]; exact (word32_bytes _).app (tape_bytes n _)

/-- After `n` hints. -/
def World.past (w : World) (n : Nat) : World := { w with inp := fun i => w.inp (i + n) }

theorem store_word {v : Nat} : storeBytes w a v 32 = w.put a (word32 v) := by
  refine World.mem_ext (fun b => ?_) (storeBytes_ctx ..) (storeBytes_inp ..)
  rw [storeBytes_mem]
  simp only [World.put, word32_length]
  split
  · rename_i h
    have h2 : b - a < 32 := by omega
    simp [word32, List.getD_eq_getElem?_getD, h2]
  · rfl

structure Prog.Routers (P : Prog) : Prop where
  t0 : P.Type0s
  has : P.Has routerCode

/-- `asm/rlp/read_to_memory.asm:16-29`: word after word, up to the length. -/
theorem run_read_loop (hP : P.Routers) : ∀ (n a : Nat) (w : World) {e : Nat}, e ≤ a + 32 * n → (n = 0 ∨ a + 32 * (n - 1) < e ∧ Span a (32 * n)) →
    Reaches P (exec P b_read_rlp_to_memory_loop (a :: e :: S) w)
      (.goto (P.addr "read_rlp_to_memory_finish") ((a + 32 * n) :: e :: S) ((w.past n).put a (tape w.inp n))) := by
  intro n
  induction n with
  | zero =>
    intro a w e h1 _
    rw [b_read_rlp_to_memory_loop]
    kexec []
    rw [if_neg (by omega), tape, put_nil]
    exact .refl _
  | succ n ih =>
    intro a w e h1 h2
    obtain ⟨h2, h3⟩ := h2.resolve_left (by omega)
    rw [b_read_rlp_to_memory_loop]
    kexec []
    rw [if_pos (by omega), exec_input']
    kexec []
    rw [exec_mstore32 (h3.le (by omega)), store_word]
    kexec []
    have hw : ((w.next.put a (word32 (w.inp 0))).past n).put (a + 32) (tape (w.next.put a (word32 (w.inp 0))).inp n)
        = (w.past (n + 1)).put a (tape w.inp (n + 1)) := by
      rw [tape, ← put_put, word32_length]
      refine World.mem_ext (fun b => rfl) rfl ?_
      funext i
      show w.inp (i + n + 1) = w.inp (i + (n + 1))
      rw [Nat.add_assoc]
    rw [← hw, show a + 32 * (n + 1) = a + 32 + 32 * n by omega]
    enter hP.has in routerCode
    refine ih (a + 32) _ (by omega) ?_
    by_cases hn : n = 0
    · exact .inl hn
    · exact .inr ⟨by omega, (h3.later (k := 32) (by omega)).le (by omega)⟩

/-- `asm/rlp/read_to_memory.asm:7-37`. -/
theorem run_read_txn (hP : P.Routers) (hl : w.inp 0 + 32 < 2 ^ 32) :
    Reaches P (.goto (P.addr "read_rlp_to_memory") (ret :: S) w)
      (.goto ret (w.inp 0 :: S) ((w.past ((w.inp 0 + 31) / 32 + 1)).put rlpStart (tape w.next.inp ((w.inp 0 + 31) / 32)))) := by
  enter hP.has in routerCode
  rw [b_read_rlp_to_memory, exec_input']
  kexec []
  rw [wadd_small (by omega)]
  refine (run_read_loop hP ((w.inp 0 + 31) / 32) rlpStart w.next (by simp only [rlpStart]; omega) ?_).trans ?_
  · by_cases h : w.inp 0 = 0
    · rw [h]; exact .inl rfl
    · exact .inr ⟨by simp only [rlpStart]; omega, by decide, by decide, by simp only [rlpStart]; omega⟩
  enter hP.has in routerCode
  rw [b_read_rlp_to_memory_finish]
  kexec []
  rw [wsub_small (by omega) (by omega), Nat.add_sub_cancel_left]
  exact .refl _

/-- `asm/transactions/router.asm:51-77`: the bytes read are copied to a new leaf. -/
theorem run_update_txn {len key nib : Nat} {l : List Nat} (hP : P.Routers) (hm : HasBytes w rlpStart l) (hb : AllBytes l) (hl : l.length = len)
    (hp : w.mem 0x500000002 + 1 + len < 2 ^ 32 - 1) :
    Reaches P (.goto (P.addr "update_txn_trie") (len :: key :: nib :: S) w)
      (.goto (P.addr "mpt_insert_txn_trie") (key :: nib :: w.mem 0x500000002 :: S)
        ((((w.set 0x500000002 (w.mem 0x500000002 + 1)).set (0xc00000000 + w.mem 0x500000002) len).put (0xc00000000 + (w.mem 0x500000002 + 1)) l).set
          0x500000002 (w.mem 0x500000002 + 1 + len))) := by
  obtain ⟨p, hpe⟩ : ∃ p, w.mem 0x500000002 = p := ⟨_, rfl⟩
  enter hP.has in routerCode
  rw [b_update_txn_trie]
  kexec [m_get_trie_data_size, m_append_to_trie_data, m_mload_global_metadata, m_mstore_global_metadata, m_set_trie_data_size, m_mstore_trie_data,
    m_mstore_kernel1, m_build_kernel_address, m_increment, m_add_const]
  rw [exec_mload_at (by decide), hpe]
  rw [hpe] at hp
  kexec []
  rw [exec_mload_at (by decide), hpe]
  kexec []
  rw [wadd_small (by omega), exec_mstore_at (by decide), Nat.add_comm 1 p]
  kexec []
  rw [wadd_small (by omega), exec_mstore_at (by omega)]
  kexec []
  rw [wadd_small (a := 1) (by omega), wadd_small (by omega), Nat.add_comm 1 p]
  have hm' : HasBytes ((w.set 0x500000002 (p + 1)).set (0xc00000000 + p) len) rlpStart l := by
    intro i hi
    rw [← hm i hi]
    simp only [World.set, rlpStart]
    rw [if_neg (by omega), if_neg (by omega)]
  have hc : cellsAt ((w.set 0x500000002 (p + 1)).set (0xc00000000 + p) len) rlpStart len = l := by
    refine List.ext_getElem (by rw [cellsAt_length, hl]) fun i h1 h2 => ?_
    have h3 := hm' i h2
    rw [List.getD_eq_getElem?_getD, List.getElem?_eq_getElem h2] at h3
    simp only [cellsAt, List.getElem_map, List.getElem_range]
    exact h3
  refine (run_memcpy_bytes hP.t0.rlps.copies len _ rlpStart _ ⟨by omega, by simp only [SegOk]; omega, by omega⟩
    ⟨by decide, by decide, by simp only [rlpStart]; omega⟩ (by simp only [rlpStart]; omega) ?_).trans ?_
  · intro i hi
    rw [hm' i (by omega), List.getD_eq_getElem?_getD, List.getElem?_eq_getElem (by omega)]
    exact hb _ (List.getElem_mem _)
  rw [put_copy, hc]
  enter hP.has in routerCode
  rw [b_router_1_after]
  kexec [m_set_trie_data_size, m_mstore_global_metadata]
  rw [wadd_small (by omega), exec_mstore_at (by decide), Nat.add_comm len]
  kexec []
  exact .refl _

end Verif.Kasm
