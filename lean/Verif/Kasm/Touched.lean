import Verif.Kasm.Journal
import Verif.Kasm.Code.Touched

/-! The list of touched addresses (`asm/core/touched_addresses.asm`): accounts that are deleted at the end of the transaction if they are empty. -/

namespace Verif.Kasm

variable {P : Prog} {c : List I} {S s : List Nat} {w w' : World} {js : List (List Nat)} {a ret : Nat} {ts : List Nat}

/-- The list's segment (`memory/segments.rs`, `TouchedAddresses`) and its length (`constants/global_metadata.rs`). -/
abbrev touchBase : Nat := 0x1e00000000
abbrev touchLen : Nat := 0x500000022

/-- The list in memory has the addresses `ts`, in the order of insertion. -/
structure TouchedAre (w : World) (ts : List Nat) : Prop where
  len : w.mem touchLen = ts.length
  fits : ts.length ≤ 2 ^ 32
  at_ : ∀ i (h : i < ts.length), w.mem (touchBase + i) = ts[i]

def TouchArea (a : Nat) : Prop := a = touchLen ∨ (touchBase ≤ a ∧ a < touchBase + 2 ^ 32)

theorem TouchedAre.congr (h : TouchedAre w ts) (hm : ∀ a, TouchArea a → w'.mem a = w.mem a) : TouchedAre w' ts := by
  have := h.fits
  refine ⟨by rw [hm _ (.inl rfl)]; exact h.len, h.fits, fun i hi => ?_⟩
  rw [hm _ (.inr ⟨by omega, by omega⟩)]
  exact h.at_ i hi

/-- Memory after an address has been added. -/
def World.touch (w : World) (a : Nat) : World :=
  ((pushEntry w [2, a]).set (touchBase + w.mem touchLen) a).set touchLen (w.mem touchLen + 1)

/-- What adding an address changes. -/
theorem touch_spec (hw : Words w) (h : JournalIs w js) (ht : TouchedAre w ts) (hd : w.mem jdatLen + 2 ≤ 2 ^ 32) (hj : js.length < 2 ^ 32)
    (hl : ts.length < 2 ^ 32) (ha : a < 2 ^ 256) :
    JournalIs (w.touch a) (js ++ [[2, a]]) ∧ TouchedAre (w.touch a) (ts ++ [a]) ∧
      Keeps w (w.touch a) (fun b => JourArea b ∨ TouchArea b) ∧ Words (w.touch a) ∧ (w.touch a).mem jdatLen = w.mem jdatLen + 2 := by
  obtain ⟨h1, h2, h3, h4⟩ := h.push (l := [2, a]) hw hd hj (by simp; omega)
  have hlen := ht.len
  have hne : ∀ b, JourArea b → b ≠ touchLen ∧ b ≠ touchBase + w.mem touchLen := fun b hb => by
    simp only [JourArea, touchLen, touchBase, jourLen, jdatLen, jourBase, jdatBase] at *; omega
  refine ⟨h1.congr fun b hb => ?_, ⟨?_, by simp; omega, fun i hi => ?_⟩, ⟨h2.1, h2.2.1, fun b hb => ?_⟩, (h3.set ha).set (by omega), ?_⟩
  · rw [World.touch, set_ne (hne b hb).1, set_ne (hne b hb).2]
  · rw [World.touch, set_same, hlen]; simp
  · rw [World.touch, set_ne (by simp only [touchBase, touchLen]; omega)]
    by_cases hi' : i = ts.length
    · subst hi'
      rw [hlen, set_same]; simp
    · have hi2 : i < ts.length := by simp at hi; omega
      rw [set_ne (by omega), List.getElem_append_left hi2, h2.2.2, ht.at_ i hi2]
      simp only [JourArea, touchBase, jourLen, jdatLen, jourBase, jdatBase]; omega
  · rw [World.touch, set_ne (fun e => hb (.inr (.inl e))), set_ne (fun e => hb (.inr (.inr ⟨by omega, by omega⟩))), h2.2.2 _ fun e => hb (.inl e)]
  · rw [World.touch, set_ne (by decide), set_ne (by simp only [jdatLen, touchBase]; omega), h4]; rfl

/-- The loop of `insert_touched_addresses`, from the position `i` on: the address is not among those before. -/
theorem run_insert_touched_loop (hP : P.Has touchedCode) (hw : Words w) (h : JournalIs w js) (ht : TouchedAre w ts) (hd : w.mem jdatLen + 2 ≤ 2 ^ 32)
    (hj : js.length < 2 ^ 32) (hl : ts.length < 2 ^ 32) : ∀ d i, i + d = ts.length → a ∉ ts.take i →
    Reaches P (exec P b_insert_touched_addresses_loop ((touchBase + i) :: (touchBase + ts.length) :: a :: ret :: S) w)
      (.goto ret S (if a ∈ ts then w else w.touch a)) := by
  intro d
  induction d with
  | zero =>
    intro i hi hn
    have hi : i = ts.length := by omega
    subst hi
    rw [List.take_length] at hn
    rw [if_neg hn, b_insert_touched_addresses_loop]
    kexec []
    rw [if_neg (by simp)]
    enter hP in touchedCode
    rw [b_insert_address]
    kexec [m_journal_add_account_touched]
    rw [exec_journal_1 hd (by rw [h.len]; omega)]
    kexec [m_swap_mstore]
    rw [exec_mstore_at (by simp only [touchBase]; omega)]
    kexec [m_increment, m_add_const, m_mstore_global_metadata]
    rw [wsub_small (by simp only [touchBase]; omega) (by simp only [touchBase]; omega), Nat.add_sub_cancel_left, wadd_small (by omega), exec_mstore_at (by omega)]
    kexec []
    rw [World.touch, ht.len, Nat.add_comm 1]
    exact .refl _
  | succ d ih =>
    intro i hi hn
    have hi' : i < ts.length := by omega
    rw [b_insert_touched_addresses_loop]
    kexec []
    rw [if_pos (by omega), exec_mload_at (by simp only [touchBase]; omega), ht.at_ i hi']
    kexec []
    by_cases he : a = ts[i]
    · rw [if_neg (by simpa using he), if_pos (by rw [he]; exact List.getElem_mem hi')]
      enter hP in touchedCode
      rw [b_insert_touched_addresses_found]
      kexec []
      exact .refl _
    · rw [if_pos (by simpa using he)]
      kexec [m_increment, m_add_const]
      rw [wadd_small (by simp only [touchBase]; omega), show 1 + (touchBase + i) = touchBase + (i + 1) by omega]
      enter hP in touchedCode
      refine ih (i + 1) (by omega) ?_
      rw [List.take_add_one, List.getElem?_eq_getElem hi']
      simp only [List.mem_append, Option.toList_some, List.mem_singleton]
      exact fun e => e.elim hn he

/-- `insert_touched_addresses`: the address is in the list afterwards, once; if it was not, this is in the journal. -/
theorem run_insert_touched (hP : P.Has touchedCode) (hw : Words w) (h : JournalIs w js) (ht : TouchedAre w ts) (hd : w.mem jdatLen + 2 ≤ 2 ^ 32)
    (hj : js.length < 2 ^ 32) (hl : ts.length < 2 ^ 32) :
    Reaches P (.goto (P.addr "insert_touched_addresses") (a :: ret :: S) w) (.goto ret S (if a ∈ ts then w else w.touch a)) := by
  have := run_insert_touched_loop (a := a) (ret := ret) (S := S) hP hw h ht hd hj hl ts.length 0 (by omega) (by simp)
  enter hP in touchedCode
  rw [b_insert_touched_addresses, exec_load_global (by omega), ht.len]
  generalize b_insert_touched_addresses_loop = t at *
  kexec []
  rw [wadd_small (by omega)]
  exact this

end Verif.Kasm
