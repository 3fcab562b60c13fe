import Verif.Kasm.AccessClaims
import Verif.Kasm.Env
import Verif.Kasm.Code.Macros2

/-! The journal: the record of changes that can be undone, and the counter of refunds. -/

namespace Verif.Kasm

variable {P : Prog} {c : List I} {s : List Nat} {w w' : World} {js : List (List Nat)} {l : List Nat}

/-- The cells of the journal, its data and their lengths. -/
def JourArea (a : Nat) : Prop := a = jourLen ∨ a = jdatLen ∨ (jourBase ≤ a ∧ a < jdatBase + 2 ^ 32)

/-- The journal in memory consists of the entries `js`, the oldest one first. -/
structure JournalIs (w : World) (js : List (List Nat)) : Prop where
  len : w.mem jourLen = js.length
  fits : js.length ≤ 2 ^ 32
  data : w.mem jdatLen ≤ 2 ^ 32
  entry : ∀ i (h : i < js.length), w.mem (jourBase + i) + js[i].length ≤ w.mem jdatLen ∧
    ∀ j, j < js[i].length → w.mem (jdatBase + w.mem (jourBase + i) + j) = js[i].getD j 0

theorem JournalIs.congr (h : JournalIs w js) (hm : ∀ a, JourArea a → w'.mem a = w.mem a) : JournalIs w' js := by
  have h1 := h.fits; have h2 := h.data
  have e1 : w'.mem jourLen = w.mem jourLen := hm _ (.inl rfl)
  have e2 : w'.mem jdatLen = w.mem jdatLen := hm _ (.inr (.inl rfl))
  refine ⟨by rw [e1]; exact h.len, h1, by rw [e2]; exact h2, fun i hi => ?_⟩
  obtain ⟨h3, h4⟩ := h.entry i hi
  have e3 : w'.mem (jourBase + i) = w.mem (jourBase + i) := hm _ (.inr (.inr ⟨by omega, by simp only [jourBase, jdatBase]; omega⟩))
  rw [e2, e3]
  refine ⟨h3, fun j hj => ?_⟩
  rw [hm _ (.inr (.inr ⟨by simp only [jourBase, jdatBase]; omega, by omega⟩))]
  exact h4 j hj

/-- A logged entry is the last one of the journal. -/
theorem JournalIs.logged (h : JournalIs w js) (hl : Logged w w' l)
    (hk : ∀ a, JourArea a → ¬ JourCell w l.length a → w'.mem a = w.mem a)
    (hd : w.mem jdatLen + l.length ≤ 2 ^ 32) (hj : w.mem jourLen < 2 ^ 32) : JournalIs w' (js ++ [l]) := by
  obtain ⟨i1, i2, i3, i4⟩ := hl
  have h0 := h.len
  refine ⟨by rw [i1, h0]; simp, by simp; omega, by omega, fun i hi => ?_⟩
  by_cases hlt : i < js.length
  · obtain ⟨h3, h4⟩ := h.entry i hlt
    have e3 : w'.mem (jourBase + i) = w.mem (jourBase + i) := hk _ (.inr (.inr ⟨by omega, by simp only [jourBase, jdatBase]; omega⟩))
      (by simp only [JourCell, jourBase, jourLen, jdatLen, jdatBase] at *; omega)
    rw [List.getElem_append_left hlt, e3, i2]
    refine ⟨by omega, fun j hj' => ?_⟩
    rw [hk _ (.inr (.inr ⟨by simp only [jourBase, jdatBase]; omega, by omega⟩)) (by simp only [JourCell, jourBase, jourLen, jdatLen, jdatBase] at *; omega)]
    exact h4 j hj'
  · have hi' : i = js.length := by simp at hi; omega
    subst hi'
    have : (js ++ [l])[js.length] = l := by simp
    rw [this, ← h0, i3, i2]
    exact ⟨by omega, i4⟩

/-- Adding an entry. -/
theorem JournalIs.push (h : JournalIs w js) (hw : Words w) (hd : w.mem jdatLen + l.length ≤ 2 ^ 32) (hj : js.length < 2 ^ 32)
    (hv : ∀ v ∈ l, v < 2 ^ 256) :
    JournalIs (pushEntry w l) (js ++ [l]) ∧ Keeps w (pushEntry w l) JourArea ∧ Words (pushEntry w l) ∧
      (pushEntry w l).mem jdatLen = w.mem jdatLen + l.length := by
  have h0 := h.len
  obtain ⟨i1, i2, i3⟩ := pushEntry_spec hw hd (by omega) hv
  refine ⟨h.logged i1 (fun a _ ha => i2.2.2 a ha) hd (by omega), i2.mono fun a ha => ?_, i3, i1.2.1⟩
  simp only [JourArea, JourCell, jourBase, jdatBase, jourLen, jdatLen] at *
  omega

theorem exec_journal_3 {t v u x : Nat} (hd : w.mem jdatLen + 4 ≤ 2 ^ 32) (hj : w.mem jourLen < 2 ^ 32) :
    exec P (m_journal_add_3 (.lit t) ++ c) (v :: u :: x :: s) w = exec P c s (pushEntry w [t, v, u, x]) := by
  have hlen : (pushData w [t, v, u, x]).mem jourLen = w.mem jourLen := by
    simp only [pushData, set_same]
    rw [set_ne (by decide), set_ne (by simp only [jourLen, jdatBase]; omega), set_ne (by decide),
      set_ne (by simp only [jourLen, jdatBase]; omega), set_ne (by decide),
      set_ne (by simp only [jourLen, jdatBase]; omega), set_ne (by decide), set_ne (by simp only [jourLen, jdatBase]; omega)]
  kexec [m_journal_add_3, m_journal_data_size, m_mload_global_metadata]
  rw [exec_mload_at (by omega)]
  kexec []
  rw [exec_append_data (by omega)]
  kexec []
  rw [exec_append_data (by rw [set_same]; omega)]
  kexec []
  rw [exec_append_data (by rw [set_same, set_same]; omega)]
  kexec []
  rw [exec_append_data (by rw [set_same, set_same, set_same]; omega)]
  rw [← hlen] at hj
  show exec P (m_append_journal ++ c) (w.mem jdatLen :: s) (pushData w [t, v, u, x]) = _
  rw [exec_append_journal hj, hlen]
  rfl

/-! ### Refunds -/

/-- `@GLOBAL_METADATA_REFUND_COUNTER`. -/
abbrev refundCell : Nat := 0x50000001b

/-- Memory after `%refund_gas` (`asm/core/gas.asm:19-25`): the amount is in the journal and has been added to the counter. -/
def World.refund (w : World) (x : Nat) : World := (pushEntry w [8, x]).set refundCell (wadd (w.mem refundCell) x)

theorem exec_refund_gas {x : Nat} (hw : Words w) (h : JournalIs w js) (hd : w.mem jdatLen + 2 ≤ 2 ^ 32) (hj : js.length < 2 ^ 32) (hx : x < 2 ^ 256) :
    exec P (m_refund_gas ++ c) (x :: s) w = exec P c s (w.refund x) := by
  have h0 := h.len
  obtain ⟨-, h2, -, -⟩ := h.push (l := [8, x]) hw hd hj (by simp; omega)
  have e : (pushEntry w [8, x]).mem refundCell = w.mem refundCell := h2.2.2 _ (by
    simp only [JourArea, refundCell, jourLen, jdatLen, jourBase, jdatBase]; omega)
  kexec [m_refund_gas, m_journal_refund]
  rw [exec_journal_1 (by omega) (by omega)]
  kexec [m_mstore_global_metadata]
  rw [exec_load_global (by omega), e]
  kexec []
  rw [exec_mstore_at (by omega)]
  rfl

/-- What a refund changes. -/
theorem refund_spec {x : Nat} (hw : Words w) (h : JournalIs w js) (hd : w.mem jdatLen + 2 ≤ 2 ^ 32) (hj : js.length < 2 ^ 32) (hx : x < 2 ^ 256) :
    JournalIs (w.refund x) (js ++ [[8, x]]) ∧ Keeps w (w.refund x) (fun a => JourArea a ∨ a = refundCell) ∧ Words (w.refund x) ∧
      (w.refund x).mem jdatLen = w.mem jdatLen + 2 ∧ (w.refund x).mem refundCell = wadd (w.mem refundCell) x := by
  obtain ⟨h1, h2, h3, h4⟩ := h.push (l := [8, x]) hw hd hj (by simp; omega)
  have hne : ∀ a, JourArea a → a ≠ refundCell := fun a ha => by
    simp only [JourArea, refundCell, jourLen, jdatLen, jourBase, jdatBase] at *; omega
  refine ⟨h1.congr fun a ha => set_ne (hne a ha), ⟨h2.1, h2.2.1, fun a ha => ?_⟩, h3.set (by simp only [wadd]; omega), ?_, set_same⟩
  · rw [World.refund, set_ne (fun e => ha (.inr e)), h2.2.2 a (fun e => ha (.inl e))]
  · rw [World.refund, set_ne (by decide), h4]; rfl

/-- Several refunds. -/
def World.refunds (w : World) : List Nat → World
  | [] => w
  | x :: xs => (w.refund x).refunds xs

theorem refunds_spec (xs : List Nat) : ∀ (w : World) (js : List (List Nat)), Words w → JournalIs w js →
    w.mem jdatLen + 2 * xs.length ≤ 2 ^ 32 → js.length + xs.length ≤ 2 ^ 32 → (∀ x ∈ xs, x < 2 ^ 256) →
    JournalIs (w.refunds xs) (js ++ xs.map ([8, ·])) ∧ Keeps w (w.refunds xs) (fun a => JourArea a ∨ a = refundCell) ∧ Words (w.refunds xs) ∧
      (w.refunds xs).mem jdatLen = w.mem jdatLen + 2 * xs.length ∧ (w.refunds xs).mem refundCell = xs.foldl wadd (w.mem refundCell) := by
  induction xs with
  | nil => intro w js hw h _ _ _; exact ⟨by simpa [World.refunds] using h, ⟨rfl, rfl, fun _ _ => rfl⟩, hw, rfl, rfl⟩
  | cons x xs ih =>
    intro w js hw h hd hj hx
    rw [List.length_cons] at hd hj
    obtain ⟨h1, h2, h3, h4, h5⟩ := refund_spec hw h (by omega) (by omega) (hx x (by simp))
    obtain ⟨i1, i2, i3, i4, i5⟩ := ih (w.refund x) _ h3 h1 (by omega) (by simp; omega) (fun y hy => hx y (by simp [hy]))
    refine ⟨?_, h2.trans i2, i3, ?_, ?_⟩
    · simpa [World.refunds] using i1
    · rw [World.refunds, i4, h4, List.length_cons]; omega
    · rw [World.refunds, i5, h5, List.foldl_cons]

end Verif.Kasm
