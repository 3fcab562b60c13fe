import Verif.Stark.Memory.History
import Mathlib.Data.List.Count
import Mathlib.Data.List.GetD
import Mathlib.Algebra.BigOperators.Ring.Multiset

/-! The generated rows satisfy the constraints and lookups of the memory table. -/

namespace Verif.Stark.Memory

open Finset

variable {L : List Op} {stale : List ℕ}

/-- The operation of row `i`. -/
abbrev opAt (L : List Op) (i : ℕ) : Op := L.getD i zeroRead

theorem opAt_mem {i : ℕ} (hi : i < L.length) : opAt L i ∈ L := by
  unfold opAt; rw [List.getD_eq_getElem _ _ hi]; exact List.getElem_mem hi

theorem base_into (L : List Op) (i : ℕ) {c : ℕ} (hc : c < 15) : baseRow L i c = intoRow (opAt L i) c := by
  unfold baseRow flagged
  simp only [CONTEXT_FIRST_CHANGE, SEGMENT_FIRST_CHANGE, VIRTUAL_FIRST_CHANGE, RANGE_CHECK, PREINITIALIZED_AUX, PREINITIALIZED, INITIALIZE_AUX]
  rw [if_neg (by omega), if_neg (by omega), if_neg (by omega), if_neg (by omega), if_neg (by omega), if_neg (by omega), if_neg (by omega)]

theorem trace_base {i c : ℕ} (hc : c < 21 ∨ c = 27) : traceRow L stale i c = baseRow L i c := by
  unfold traceRow staleRow
  simp only [COUNTER, FREQUENCIES, IS_STALE, STALE_FREQUENCIES, MAYBE_IN_MEM_AFTER, MEM_AFTER_FILTER, STALE_CONTEXTS, IS_PRUNED]
  rw [if_neg (by omega), if_neg (by omega), if_neg (by omega), if_neg (by omega), if_neg (by omega), if_neg (by omega), if_neg (by omega), if_neg (by omega)]

theorem trace_into {i c : ℕ} (hc : c < 15) : traceRow L stale i c = intoRow (opAt L i) c := by
  rw [trace_base (by omega), base_into L i hc]

theorem into_value (o : Op) {j : ℕ} (hj : j < 8) : intoRow o (VALUE + j) = ((o.value / 2 ^ (32 * j) % 2 ^ 32 : ℕ) : F) := by
  unfold intoRow
  simp only [VALUE, FILTER, TIMESTAMP, TIMESTAMP_INV, IS_READ, ADDR_CONTEXT, ADDR_SEGMENT, ADDR_VIRTUAL]
  rw [if_neg (by omega), if_neg (by omega), if_neg (by omega), if_neg (by omega), if_neg (by omega), if_neg (by omega), if_neg (by omega), if_pos (by omega),
    show 7 + j - 7 = j by omega]

/-- The address of a row changes after it, as field elements. -/
def Moves (lv nv : Row F) : Prop := lv ADDR_CONTEXT ≠ nv ADDR_CONTEXT ∨ lv ADDR_SEGMENT ≠ nv ADDR_SEGMENT ∨ lv ADDR_VIRTUAL ≠ nv ADDR_VIRTUAL

theorem flagged_order (last : Bool) (lv nv : Row F) :
    (∀ c ∈ [CONTEXT_FIRST_CHANGE, SEGMENT_FIRST_CHANGE, VIRTUAL_FIRST_CHANGE], flagged last lv nv c = 0 ∨ flagged last lv nv c = 1) ∧
    (unchanged (flagged last lv nv) = 0 ∧ Moves lv nv ∨ unchanged (flagged last lv nv) = 1 ∧ ¬ Moves lv nv) ∧
    flagged last lv nv SEGMENT_FIRST_CHANGE * (nv ADDR_CONTEXT - lv ADDR_CONTEXT) = 0 ∧
    flagged last lv nv VIRTUAL_FIRST_CHANGE * (nv ADDR_CONTEXT - lv ADDR_CONTEXT) = 0 ∧
    flagged last lv nv VIRTUAL_FIRST_CHANGE * (nv ADDR_SEGMENT - lv ADDR_SEGMENT) = 0 ∧
    (last = false → flagged last lv nv RANGE_CHECK =
      flagged last lv nv CONTEXT_FIRST_CHANGE * (nv ADDR_CONTEXT - lv ADDR_CONTEXT - 1) +
      flagged last lv nv SEGMENT_FIRST_CHANGE * (nv ADDR_SEGMENT - lv ADDR_SEGMENT - 1) +
      flagged last lv nv VIRTUAL_FIRST_CHANGE * (nv ADDR_VIRTUAL - lv ADDR_VIRTUAL - 1) +
      unchanged (flagged last lv nv) * (nv TIMESTAMP - lv TIMESTAMP)) := by
  have e1 : flagged last lv nv CONTEXT_FIRST_CHANGE = if lv ADDR_CONTEXT ≠ nv ADDR_CONTEXT then 1 else 0 := rfl
  have e2 : flagged last lv nv SEGMENT_FIRST_CHANGE = if lv ADDR_SEGMENT ≠ nv ADDR_SEGMENT ∧ ¬ lv ADDR_CONTEXT ≠ nv ADDR_CONTEXT then 1 else 0 := rfl
  have e3 : flagged last lv nv VIRTUAL_FIRST_CHANGE = if lv ADDR_VIRTUAL ≠ nv ADDR_VIRTUAL ∧ ¬ (lv ADDR_SEGMENT ≠ nv ADDR_SEGMENT ∧ ¬ lv ADDR_CONTEXT ≠ nv ADDR_CONTEXT) ∧
    ¬ lv ADDR_CONTEXT ≠ nv ADDR_CONTEXT then 1 else 0 := rfl
  have e4 : flagged last lv nv RANGE_CHECK = if last then 0
     else if lv ADDR_CONTEXT ≠ nv ADDR_CONTEXT then nv ADDR_CONTEXT - lv ADDR_CONTEXT - 1
     else if lv ADDR_SEGMENT ≠ nv ADDR_SEGMENT ∧ ¬ lv ADDR_CONTEXT ≠ nv ADDR_CONTEXT then nv ADDR_SEGMENT - lv ADDR_SEGMENT - 1
     else if lv ADDR_VIRTUAL ≠ nv ADDR_VIRTUAL ∧ ¬ (lv ADDR_SEGMENT ≠ nv ADDR_SEGMENT ∧ ¬ lv ADDR_CONTEXT ≠ nv ADDR_CONTEXT) ∧
      ¬ lv ADDR_CONTEXT ≠ nv ADDR_CONTEXT then nv ADDR_VIRTUAL - lv ADDR_VIRTUAL - 1
     else nv TIMESTAMP - lv TIMESTAMP := rfl
  have e5 : unchanged (flagged last lv nv) = 1 - flagged last lv nv CONTEXT_FIRST_CHANGE - flagged last lv nv SEGMENT_FIRST_CHANGE - flagged last lv nv VIRTUAL_FIRST_CHANGE := rfl
  unfold Moves
  simp only [List.mem_cons, List.not_mem_nil, or_false, forall_eq_or_imp, forall_eq]
  rw [e5, e4, e1, e2, e3]
  generalize lv ADDR_CONTEXT = a1
  generalize lv ADDR_SEGMENT = a2
  generalize lv ADDR_VIRTUAL = a3
  generalize nv ADDR_CONTEXT = b1
  generalize nv ADDR_SEGMENT = b2
  generalize nv ADDR_VIRTUAL = b3
  by_cases h1 : a1 = b1 <;> by_cases h2 : a2 = b2 <;> by_cases h3 : a3 = b3 <;> cases last <;> simp [h1, h2, h3]

/-- The two rows a constraint of row `i` sees, before the last columns are filled. -/
theorem base_eq (L : List Op) (i : ℕ) : baseRow L i = flagged (i + 1 == L.length) (intoRow (opAt L i)) (intoRow (opAt L ((i + 1) % L.length))) := rfl

theorem unchanged_trace (i : ℕ) : unchanged (traceRow L stale i) = unchanged (baseRow L i) := by
  unfold unchanged
  rw [trace_base (by decide), trace_base (by decide), trace_base (by decide)]

variable {all : List Op} {m : ℕ}

theorem Final.pos (h : Final all m L) : 0 < L.length := by have := h.height; omega

theorem Final.good (h : Final all m L) {i : ℕ} (hi : i + 1 < L.length) : Good m (opAt L i) (opAt L (i + 1)) := by
  have := List.isChain_iff_getElem.1 h.chain i hi
  unfold opAt
  rw [List.getD_eq_getElem _ _ (by omega), List.getD_eq_getElem _ _ hi]
  exact this

theorem cast_inj {a b : ℕ} (ha : a < P) (hb : b < P) : (a : F) = (b : F) ↔ a = b := by
  constructor
  · intro h
    have := congrArg ZMod.val h
    rwa [ZMod.val_natCast, ZMod.val_natCast, Nat.mod_eq_of_lt ha, Nat.mod_eq_of_lt hb] at this
  · rintro rfl; rfl

theorem Final.lt (h : Final all m L) {o : Op} (ho : o ∈ L) : o.ctx < P ∧ o.seg < P ∧ o.virt < P ∧ o.ts < P := by
  obtain ⟨h1, h2, h3, h4, -⟩ := h.bound o ho
  have := h.small
  unfold P; omega

theorem Final.moves (h : Final all m L) {o o' : Op} (ho : o ∈ L) (ho' : o' ∈ L) : Moves (intoRow o) (intoRow o') ↔ o.addr ≠ o'.addr := by
  obtain ⟨h1, h2, h3, -⟩ := h.lt ho
  obtain ⟨h1', h2', h3', -⟩ := h.lt ho'
  unfold Moves Op.addr
  rw [show intoRow o ADDR_CONTEXT = (o.ctx : F) from rfl, show intoRow o' ADDR_CONTEXT = (o'.ctx : F) from rfl,
    show intoRow o ADDR_SEGMENT = (o.seg : F) from rfl, show intoRow o' ADDR_SEGMENT = (o'.seg : F) from rfl,
    show intoRow o ADDR_VIRTUAL = (o.virt : F) from rfl, show intoRow o' ADDR_VIRTUAL = (o'.virt : F) from rfl]
  rw [Ne, Ne, Ne, cast_inj h1 h1', cast_inj h2 h2', cast_inj h3 h3', Ne, Prod.mk.injEq, Prod.mk.injEq]
  tauto

theorem Final.order (h : Final all m L) : Satisfies evalOrder L.length (traceRow L stale) := by
  intro i hi c hc happ
  have hn : (i + 1) % L.length < L.length := Nat.mod_lt _ h.pos
  obtain ⟨hb, hu, h1, h2, h3, h4⟩ := flagged_order (i + 1 == L.length) (intoRow (opAt L i)) (intoRow (opAt L ((i + 1) % L.length)))
  rw [← base_eq] at hb hu h1 h2 h3 h4
  have hbit : ∀ {x : F}, x = 0 ∨ x = 1 → x * (1 - x) = 0 := by rintro x (rfl | rfl) <;> simp
  have hcf := hb CONTEXT_FIRST_CHANGE (by simp)
  have hsf := hb SEGMENT_FIRST_CHANGE (by simp)
  have hvf := hb VIRTUAL_FIRST_CHANGE (by simp)
  have hnot : ¬ Moves (intoRow (opAt L i)) (intoRow (opAt L ((i + 1) % L.length))) → intoRow (opAt L ((i + 1) % L.length)) ADDR_CONTEXT = intoRow (opAt L i) ADDR_CONTEXT ∧
      intoRow (opAt L ((i + 1) % L.length)) ADDR_SEGMENT = intoRow (opAt L i) ADDR_SEGMENT ∧
      intoRow (opAt L ((i + 1) % L.length)) ADDR_VIRTUAL = intoRow (opAt L i) ADDR_VIRTUAL := by
    intro hm; unfold Moves at hm; push Not at hm; exact ⟨hm.1.symm, hm.2.1.symm, hm.2.2.symm⟩
  simp only [evalOrder, unchanged_trace, trace_into (show FILTER < 15 by decide), trace_into (show IS_READ < 15 by decide), trace_into (show ADDR_CONTEXT < 15 by decide),
    trace_into (show ADDR_SEGMENT < 15 by decide), trace_into (show ADDR_VIRTUAL < 15 by decide), trace_into (show TIMESTAMP < 15 by decide),
    trace_base (show CONTEXT_FIRST_CHANGE < 21 ∨ _ by decide), trace_base (show SEGMENT_FIRST_CHANGE < 21 ∨ _ by decide),
    trace_base (show VIRTUAL_FIRST_CHANGE < 21 ∨ _ by decide), trace_base (show RANGE_CHECK < 21 ∨ RANGE_CHECK = 27 by decide)] at hc
  have hu0 : unchanged (baseRow L i) = 0 ∨ unchanged (baseRow L i) = 1 := hu.imp And.left And.left
  simp only [List.mem_cons, List.not_mem_nil, or_false] at hc
  rcases hc with rfl | rfl | rfl | rfl | rfl | rfl | rfl | rfl | rfl | rfl | rfl | rfl | rfl
  · show (if (opAt L i).filter then (1 : F) else 0) * ((if (opAt L i).filter then (1 : F) else 0) - 1) = 0
    split <;> simp
  · show (1 - (if (opAt L i).filter then (1 : F) else 0)) * (1 - (if (opAt L i).read then (1 : F) else 0)) = 0
    cases hf : (opAt L i).filter with
    | true => simp
    | false => rw [(h.dummy _ (opAt_mem hi) hf).1]; simp
  · exact hbit hcf
  · exact hbit hsf
  · exact hbit hvf
  · exact hbit hu0
  · exact h1
  · exact h2
  · exact h3
  · rcases hu with ⟨hu, -⟩ | ⟨-, hm⟩
    · show unchanged (baseRow L i) * _ = 0; rw [hu, zero_mul]
    · show _ * (_ - _) = 0; rw [(hnot hm).1, sub_self, mul_zero]
  · rcases hu with ⟨hu, -⟩ | ⟨-, hm⟩
    · show unchanged (baseRow L i) * _ = 0; rw [hu, zero_mul]
    · show _ * (_ - _) = 0; rw [(hnot hm).2.1, sub_self, mul_zero]
  · rcases hu with ⟨hu, -⟩ | ⟨-, hm⟩
    · show unchanged (baseRow L i) * _ = 0; rw [hu, zero_mul]
    · show _ * (_ - _) = 0; rw [(hnot hm).2.2, sub_self, mul_zero]
  · show _ - _ = (0 : F)
    rw [h4 (beq_eq_false_iff_ne.2 happ), sub_self]

theorem Final.unchanged_iff (h : Final all m L) {i : ℕ} (hi : i < L.length) :
    unchanged (baseRow L i) = 0 ∧ (opAt L i).addr ≠ (opAt L ((i + 1) % L.length)).addr ∨
    unchanged (baseRow L i) = 1 ∧ (opAt L i).addr = (opAt L ((i + 1) % L.length)).addr := by
  obtain ⟨-, hu, -⟩ := flagged_order (i + 1 == L.length) (intoRow (opAt L i)) (intoRow (opAt L ((i + 1) % L.length)))
  rw [← base_eq] at hu
  rw [h.moves (opAt_mem hi) (opAt_mem (Nat.mod_lt _ h.pos)), not_not] at hu
  exact hu

theorem base_changed (i : ℕ) : baseRow L i CONTEXT_FIRST_CHANGE + baseRow L i SEGMENT_FIRST_CHANGE + baseRow L i VIRTUAL_FIRST_CHANGE = 1 - unchanged (baseRow L i) := by
  unfold unchanged; ring

theorem base_init (i : ℕ) : baseRow L i INITIALIZE_AUX = baseRow L i PREINITIALIZED * (1 - unchanged (baseRow L i)) * intoRow (opAt L ((i + 1) % L.length)) IS_READ := by
  rw [← base_changed]; rfl

theorem base_pre (i : ℕ) : baseRow L i PREINITIALIZED = (intoRow (opAt L ((i + 1) % L.length)) ADDR_SEGMENT - (CODE : F)) *
    (intoRow (opAt L ((i + 1) % L.length)) ADDR_SEGMENT - (TRIE_DATA : F)) * baseRow L i PREINITIALIZED_AUX := rfl

theorem base_aux (i : ℕ) : baseRow L i PREINITIALIZED_AUX = (intoRow (opAt L ((i + 1) % L.length)) ADDR_SEGMENT - (ACCOUNTS_LINKED_LIST : F)) *
    (intoRow (opAt L ((i + 1) % L.length)) ADDR_SEGMENT - (STORAGE_LINKED_LIST : F)) := rfl

theorem Final.values (h : Final all m L) : Satisfies evalValues L.length (traceRow L stale) := by
  intro i hi c hc happ
  have hlt : (i + 1) % L.length < L.length := Nat.mod_lt _ h.pos
  simp only [evalValues, List.mem_append, List.mem_flatMap, List.mem_range, unchanged_trace,
    trace_into (show IS_READ < 15 by decide), trace_into (show ADDR_SEGMENT < 15 by decide),
    trace_base (show PREINITIALIZED_AUX < 21 ∨ _ by decide), trace_base (show PREINITIALIZED < 21 ∨ _ by decide),
    trace_base (show INITIALIZE_AUX < 21 ∨ _ by decide)] at hc
  rcases hc with hc | ⟨j, hj, hc⟩
  · simp only [List.mem_cons, List.not_mem_nil, or_false] at hc
    rcases hc with rfl | rfl | rfl
    · show _ - _ = (0 : F); rw [base_aux, sub_self]
    · show _ - _ = (0 : F); rw [base_pre, sub_self]
    · show _ - _ = (0 : F); rw [base_init, sub_self]
  · rw [trace_into (show VALUE + j < 15 by simp only [VALUE]; omega), trace_into (show VALUE + j < 15 by simp only [VALUE]; omega), into_value _ hj, into_value _ hj] at hc
    have happ' : i + 1 ≠ L.length := by
      simp only [List.mem_cons, List.not_mem_nil, or_false] at hc
      rcases hc with rfl | rfl <;> exact happ
    have hi1 : i + 1 < L.length := by omega
    have hmod : (i + 1) % L.length = i + 1 := Nat.mod_eq_of_lt hi1
    have hg := h.good hi1
    have hu := h.unchanged_iff hi
    have hinit := base_init (L := L) i
    have hpre := base_pre (L := L) i
    have haux := base_aux (L := L) i
    rw [hmod] at hc hu hinit hpre haux
    have hread : intoRow (opAt L (i + 1)) IS_READ = if (opAt L (i + 1)).read then 1 else 0 := rfl
    simp only [List.mem_cons, List.not_mem_nil, or_false] at hc
    rcases hc with rfl | rfl
    · show _ * _ * (_ - _) = (0 : F)
      rcases hu with ⟨hu, -⟩ | ⟨-, he⟩
      · rw [hu, mul_zero, zero_mul]
      · rw [hread]
        cases hr : (opAt L (i + 1)).read with
        | true => rw [hg.same he hr, sub_self, mul_zero]
        | false => simp
    · show _ * _ = (0 : F)
      rw [hinit, hread]
      rcases hu with ⟨-, he⟩ | ⟨hu, -⟩
      · cases hr : (opAt L (i + 1)).read with
        | false => simp
        | true =>
          by_cases hz : ZeroInit ((opAt L (i + 1)).seg : F)
          · rw [hg.fresh he hr hz]; simp
          · have : baseRow L i PREINITIALIZED = 0 := by
              rw [hpre, haux, show intoRow (opAt L (i + 1)) ADDR_SEGMENT = ((opAt L (i + 1)).seg : F) from rfl]
              unfold ZeroInit at hz
              by_contra hne
              refine hz ⟨fun e => hne ?_, fun e => hne ?_, fun e => hne ?_, fun e => hne ?_⟩ <;> rw [e] <;>
                simp [CODE, TRIE_DATA, ACCOUNTS_LINKED_LIST, STORAGE_LINKED_LIST]
            rw [this]; simp
      · rw [hu]; simp

theorem trace_stale (i : ℕ) : traceRow L stale i IS_STALE = if marked L stale i then 1 else 0 := rfl
theorem trace_maybe (i : ℕ) : traceRow L stale i MAYBE_IN_MEM_AFTER = if ¬ marked L stale i ∧ lastHere L i then 1 else 0 := rfl
theorem trace_after (i : ℕ) : traceRow L stale i MEM_AFTER_FILTER = if ¬ marked L stale i ∧ lastHere L i ∧ keeps L i then 1 else 0 := rfl

theorem Final.lastHere_iff (h : Final all m L) {i : ℕ} (hi : i < L.length) :
    lastHere L i ↔ (opAt L i).filter = true ∧ (opAt L i).addr ≠ (opAt L ((i + 1) % L.length)).addr := by
  obtain ⟨hb, -⟩ := flagged_order (i + 1 == L.length) (intoRow (opAt L i)) (intoRow (opAt L ((i + 1) % L.length)))
  rw [← base_eq] at hb
  have hcf := hb CONTEXT_FIRST_CHANGE (by simp)
  have hsf := hb SEGMENT_FIRST_CHANGE (by simp)
  have hvf := hb VIRTUAL_FIRST_CHANGE (by simp)
  have hu := h.unchanged_iff hi
  have hux : unchanged (baseRow L i) = 1 - baseRow L i CONTEXT_FIRST_CHANGE - baseRow L i SEGMENT_FIRST_CHANGE - baseRow L i VIRTUAL_FIRST_CHANGE := rfl
  unfold lastHere
  rw [base_into L i (show FILTER < 15 by decide), show intoRow (opAt L i) FILTER = if (opAt L i).filter then 1 else 0 from rfl]
  refine and_congr (by cases (opAt L i).filter <;> simp) ?_
  constructor
  · intro hx he
    rcases hu with ⟨-, hu⟩ | ⟨hu, -⟩
    · exact hu he
    · rw [hux] at hu
      revert hu
      rcases hcf with h1 | h1 <;> rcases hsf with h2 | h2 <;> rcases hvf with h3 | h3 <;> rw [h1, h2, h3] <;> rw [h1, h2, h3] at hx <;>
        first
        | exact fun _ => absurd hx (by decide)
        | decide
  · intro hne
    by_contra hx
    push Not at hx
    rcases hu with ⟨hu, -⟩ | ⟨-, hu⟩
    · rw [hux, hcf.resolve_right hx.1, hsf.resolve_right hx.2.1, hvf.resolve_right hx.2.2] at hu
      exact absurd hu (by decide)
    · exact hne hu

theorem Final.after (h : Final all m L) : Satisfies evalAfter L.length (traceRow L stale) := by
  intro i hi c hc happ
  simp only [evalAfter, List.mem_append, List.mem_map, List.mem_range, unchanged_trace, trace_into (show FILTER < 15 by decide)] at hc
  rcases hc with hc | ⟨j, hj, rfl⟩
  · simp only [List.mem_cons, List.not_mem_nil, or_false] at hc
    rcases hc with rfl | rfl
    · show _ + _ * _ * (_ - 1) = (0 : F)
      rw [trace_maybe, trace_stale, show intoRow (opAt L i) FILTER = if (opAt L i).filter then 1 else 0 from rfl]
      have hl := h.lastHere_iff hi
      rcases h.unchanged_iff hi with ⟨hu, he⟩ | ⟨hu, he⟩
      · rw [hu]
        by_cases hs : marked L stale i
        · simp [hs]
        · cases hf : (opAt L i).filter with
          | true => simp [hs, hl.2 ⟨hf, he⟩]
          | false =>
            have : ¬ lastHere L i := fun hh => by rw [(hl.1 hh).1] at hf; cases hf
            simp [this]
      · have : ¬ lastHere L i := fun hh => (hl.1 hh).2 he
        rw [hu]; simp [this]
    · show _ * (_ - 1) = (0 : F)
      rw [trace_after]; split <;> simp
  · show (_ - _) * _ * _ = (0 : F)
    rw [trace_after, trace_maybe]
    by_cases hk : keeps L i
    · by_cases hx : ¬ marked L stale i ∧ lastHere L i
      · rw [if_pos hx, if_pos ⟨hx.1, hx.2, hk⟩]; simp
      · rw [if_neg hx, if_neg (fun e => hx ⟨e.1, e.2.1⟩)]; simp
    · have : traceRow L stale i (VALUE + j) = 0 := by
        rw [trace_base (by simp only [VALUE]; omega)]
        by_contra hne
        exact hk (.inl ⟨j, hj, hne⟩)
      rw [this, mul_zero]

theorem Final.counter (h : Final all m L) : Satisfies evalCounter L.length (traceRow L stale) := by
  intro i hi c hc happ
  simp only [evalCounter, List.mem_cons, List.not_mem_nil, or_false] at hc
  rcases hc with rfl | rfl | rfl
  · show _ * (_ * _ - 1) = (0 : F)
    rw [trace_into (show TIMESTAMP < 15 by decide), trace_into (show TIMESTAMP_INV < 15 by decide),
      show intoRow (opAt L i) TIMESTAMP = ((opAt L i).ts : F) from rfl, show intoRow (opAt L i) TIMESTAMP_INV = ((opAt L i).ts : F)⁻¹ from rfl]
    by_cases h0 : ((opAt L i).ts : F) = 0
    · rw [h0, zero_mul]
    · rw [mul_inv_cancel₀ h0, sub_self, mul_zero]
  · show ((i : ℕ) : F) = 0
    have : i = 0 := happ
    rw [this]; rfl
  · have happ' : i + 1 ≠ L.length := happ
    show (((i + 1) % L.length : ℕ) : F) - ((i : ℕ) : F) - 1 = 0
    rw [Nat.mod_eq_of_lt (by omega)]; push_cast; ring

theorem Final.constraints (h : Final all m L) : Satisfies evalMemory L.length (traceRow L stale) := by
  intro i hi c hc happ
  simp only [evalMemory, List.mem_append] at hc
  rcases hc with ((hc | hc) | hc) | hc
  · exact h.order i hi c hc happ
  · exact h.values i hi c hc happ
  · exact h.after i hi c hc happ
  · exact h.counter i hi c hc happ

/-! ### Lookups -/

/-- The frequencies that a list of indices raises, seen from the table's values. -/
theorem tally {n : ℕ} (table : ℕ → F) (v : F) (inc : List ℕ) (h : ∀ x ∈ inc, x < n) :
    ∑ k ∈ range n with table k = v, ((inc.count k : ℕ) : F) = ((inc.countP (fun x => table x = v) : ℕ) : F) := by
  induction inc with
  | nil => simp
  | cons x t ih =>
    have ht := ih (fun y hy => h y (List.mem_cons_of_mem _ hy))
    have hx := h x List.mem_cons_self
    simp only [List.count_cons, List.countP_cons, Nat.cast_add, sum_add_distrib, ht]
    congr 1
    by_cases hv : table x = v
    · rw [sum_eq_single_of_mem x (mem_filter.2 ⟨mem_range.2 hx, hv⟩)]
      · simp [hv]
      · intro b _ hb; simp [Ne.symm hb]
    · rw [if_neg (by simpa using hv), Nat.cast_zero]
      refine sum_eq_zero (fun b hb => ?_)
      have hne : x ≠ b := fun e => hv (by rw [e]; exact (mem_filter.1 hb).2)
      simp [hne]

theorem sum_list_range (n : ℕ) (f : ℕ → ℕ) : ((List.range n).map f).sum = ∑ i ∈ range n, f i := rfl

theorem Final.range (h : Final all m L) (hb : inBounds L stale) : LogUp L.length (rangeLookups L.length (traceRow L stale)) (fun i => traceRow L stale i COUNTER)
    (fun i => traceRow L stale i FREQUENCIES) := by
  intro v
  have hcount : ∀ i, traceRow L stale i COUNTER = (i : F) := fun _ => rfl
  have hfreq : ∀ i, traceRow L stale i FREQUENCIES = ((((List.range L.length).flatMap (raised L)).count i : ℕ) : F) := fun _ => rfl
  simp only [hcount, hfreq]
  rw [tally (fun k => (k : F)) v _ (fun x hx => by
    obtain ⟨i, hi, hx⟩ := List.mem_flatMap.1 hx
    exact hb.1 i (List.mem_range.1 hi) x hx)]
  rw [List.countP_flatMap, sum_list_range, Nat.cast_sum]
  simp only [rangeLookups, List.map_cons, List.map_nil, List.sum_cons, List.sum_nil, add_zero]
  rw [sum_filter, sum_filter, ← sum_add_distrib]
  refine sum_congr rfl (fun i hi => ?_)
  have hi := mem_range.1 hi
  obtain ⟨hbit, hu, -⟩ := flagged_order (i + 1 == L.length) (intoRow (opAt L i)) (intoRow (opAt L ((i + 1) % L.length)))
  rw [← base_eq] at hbit
  have hcf := hbit CONTEXT_FIRST_CHANGE (by simp)
  have hsf := hbit SEGMENT_FIRST_CHANGE (by simp)
  have hboth : ¬ (baseRow L i CONTEXT_FIRST_CHANGE = 1 ∧ baseRow L i SEGMENT_FIRST_CHANGE = 1) := by
    rintro ⟨h1, h2⟩
    have e1 : baseRow L i CONTEXT_FIRST_CHANGE = if intoRow (opAt L i) ADDR_CONTEXT ≠ intoRow (opAt L ((i + 1) % L.length)) ADDR_CONTEXT then 1 else 0 := rfl
    have e2 : baseRow L i SEGMENT_FIRST_CHANGE = if intoRow (opAt L i) ADDR_SEGMENT ≠ intoRow (opAt L ((i + 1) % L.length)) ADDR_SEGMENT ∧
      ¬ intoRow (opAt L i) ADDR_CONTEXT ≠ intoRow (opAt L ((i + 1) % L.length)) ADDR_CONTEXT then 1 else 0 := rfl
    rw [e1] at h1; rw [e2] at h2
    by_cases hc : intoRow (opAt L i) ADDR_CONTEXT = intoRow (opAt L ((i + 1) % L.length)) ADDR_CONTEXT
    · rw [if_neg (fun e => e hc)] at h1; exact absurd h1 (by decide)
    · rw [if_neg (fun e => e.2 hc)] at h2; exact absurd h2 (by decide)
  have hvirt : (((if i < L.length - 1 then (baseRow L (i + 1) ADDR_VIRTUAL).val else 0 : ℕ)) : F) = traceRow L stale ((i + 1) % L.length) ADDR_VIRTUAL := by
    rw [trace_base (by decide)]
    by_cases hl : i < L.length - 1
    · rw [if_pos hl, Nat.mod_eq_of_lt (by omega), ZMod.natCast_zmod_val]
    · rw [if_neg hl, show i + 1 = L.length by omega, Nat.mod_self, base_into L 0 (by decide)]
      have hh := h.head (opAt L 0) (by
        have hp := h.pos
        unfold opAt
        rw [List.getD_eq_getElem _ _ hp, List.head?_eq_getElem?, List.getElem?_eq_getElem hp])
      rw [show intoRow (opAt L 0) ADDR_VIRTUAL = ((opAt L 0).virt : F) from rfl, hh]
  have hrc : traceRow L stale i RANGE_CHECK = baseRow L i RANGE_CHECK := trace_base (by decide)
  have hc1 : traceRow L stale i CONTEXT_FIRST_CHANGE = baseRow L i CONTEXT_FIRST_CHANGE := trace_base (by decide)
  have hs1 : traceRow L stale i SEGMENT_FIRST_CHANGE = baseRow L i SEGMENT_FIRST_CHANGE := trace_base (by decide)
  rw [← hvirt, hrc, hc1, hs1]
  show _ = (((raised L i).countP (fun x : ℕ => decide ((x : F) = v)) : ℕ) : F)
  unfold raised
  rw [List.countP_cons, ZMod.natCast_zmod_val]
  generalize (if i < L.length - 1 then (baseRow L (i + 1) ADDR_VIRTUAL).val else 0) = w
  rcases hcf with h1 | h1 <;> rcases hsf with h2 | h2
  · rw [h1, h2]; by_cases hx : baseRow L i RANGE_CHECK = v <;> simp [hx]
  · rw [h1, h2]; by_cases hx : baseRow L i RANGE_CHECK = v <;> by_cases hw : (w : F) = v <;> simp [hx, hw] <;> norm_num
  · rw [h1, h2]; by_cases hx : baseRow L i RANGE_CHECK = v <;> by_cases hw : (w : F) = v <;> simp [hx, hw] <;> norm_num
  · exact absurd ⟨h1, h2⟩ hboth

theorem Final.staleOk (h : Final all m L) (hb : inBounds L stale) : LogUp L.length (staleLookups (traceRow L stale)) (fun i => traceRow L stale i STALE_CONTEXTS)
    (fun i => traceRow L stale i STALE_FREQUENCIES) := by
  intro v
  have hfreq : ∀ i, traceRow L stale i STALE_FREQUENCIES =
      (((((List.range L.length).filter (fun k => marked L stale k)).map (fun k => (baseRow L k ADDR_CONTEXT).val)).count i : ℕ) : F) := by
    intro i
    show (((List.range L.length).countP (fun k => decide (marked L stale k ∧ (baseRow L k ADDR_CONTEXT).val = i)) : ℕ) : F) = _
    rw [List.count, List.countP_map, List.countP_filter]
    congr 2
    funext k
    simp only [Function.comp_apply, Bool.decide_and, beq_eq_decide, Bool.and_comm]
  have htab : ∀ i, traceRow L stale i STALE_CONTEXTS = staleRow L stale i STALE_CONTEXTS := fun _ => rfl
  simp only [hfreq, htab]
  rw [tally (fun k => staleRow L stale k STALE_CONTEXTS) v _ (fun x hx => by
    obtain ⟨i, hi, rfl⟩ := List.mem_map.1 hx
    exact hb.2.1 i (List.mem_range.1 (List.mem_filter.1 hi).1))]
  rw [List.countP_map, List.countP_filter]
  simp only [staleLookups, List.map_cons, List.map_nil, List.sum_cons, List.sum_nil, add_zero]
  rw [sum_filter, List.countP_eq_length_filter, ← List.countP_eq_length_filter]
  have hsum : ∀ p : ℕ → Bool, (((List.range L.length).countP p : ℕ) : F) = ∑ i ∈ Finset.range L.length, if p i then 1 else 0 := by
    intro p
    generalize L.length = n
    induction n with
    | zero => simp
    | succ n ih => rw [List.range_succ, List.countP_append, sum_range_succ, Nat.cast_add, ih]; simp
  rw [hsum]
  refine sum_congr rfl (fun i hi => ?_)
  have hctx : traceRow L stale i ADDR_CONTEXT = baseRow L i ADDR_CONTEXT := trace_base (by decide)
  rw [hctx, trace_stale]
  by_cases hm : marked L stale i
  · have hm' := hm
    unfold marked at hm'
    by_cases hv : baseRow L i ADDR_CONTEXT + 1 = v
    · rw [if_pos hv, if_pos hm, if_pos]; simp [hm, ← hm', hv]
    · rw [if_neg hv, if_neg]; simp [← hm', hv]
  · simp [hm]

theorem Final.accepted (h : Final all m L) (hb : inBounds L stale) : Accepted L.length (traceRow L stale) :=
  ⟨h.constraints, h.range hb, h.staleOk hb⟩

end Verif.Stark.Memory
