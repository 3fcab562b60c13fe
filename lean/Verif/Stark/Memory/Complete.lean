import Verif.Stark.Memory.Rows

/-! What the generated memory table shows to the other tables. -/

namespace Verif.Stark.Memory

/-! ### Specification -/

/-- The eight words of 32 bits of a value, lowest first. -/
def words (v : ℕ) : List F := (List.range 8).map (fun j => ((v / 2 ^ (32 * j) % 2 ^ 32 : ℕ) : F))

/-- The cells other tables know an operation by: whether it is a read, the address, the value and the time. -/
def opCells (o : Op) : List F := (if o.read then 1 else 0) :: (o.ctx : F) :: (o.seg : F) :: (o.virt : F) :: (words o.value ++ [(o.ts : F)])

/-- The cells the initial and the final memory know a word by: its address and its value. -/
def wordCells (v : Addr × ℕ) : List F := (v.1.1 : F) :: (v.1.2.1 : F) :: (v.1.2.2 : F) :: words v.2

/-- `v` is the value of the last operation on the address `a`. -/
def FinalValue (all : List Op) (a : Addr) (v : ℕ) : Prop := ∃ o ∈ all, o.addr = a ∧ o.value = v ∧ ∀ o' ∈ all, o'.addr = a → o'.ts ≤ o.ts

/-- The order of addresses: by context, then segment, then offset. -/
def Addr.lt (a b : Addr) : Prop := a.1 < b.1 ∨ a.1 = b.1 ∧ (a.2.1 < b.2.1 ∨ a.2.1 = b.2.1 ∧ a.2.2 < b.2.2)

/-! ### The columns other tables see -/

/-- `ctl_data`. `memory_stark.rs:30-46`. -/
def ctlData (r : Row F) : List F := [r IS_READ, r ADDR_CONTEXT, r ADDR_SEGMENT, r ADDR_VIRTUAL] ++ (List.range 8).map (fun j => r (VALUE + j)) ++ [r TIMESTAMP]

/-- `ctl_looking_mem`. `memory_stark.rs:53-65`. -/
def ctlWord (r : Row F) : List F := [r ADDR_CONTEXT, r ADDR_SEGMENT, r ADDR_VIRTUAL] ++ (List.range 8).map (fun j => r (VALUE + j))

/-- `ctl_filter_mem_before`. `memory_stark.rs:79-90`. -/
def beforeFilter (r : Row F) : F := 1 + r TIMESTAMP * (- r TIMESTAMP_INV)

/-- The column of `ctl_context_pruning_looking`. `memory_stark.rs:67-77`. -/
def prunedContext (r : Row F) : F := r STALE_CONTEXTS - 1

/-- The rows of a table that a filter selects. -/
def selected (t : Trace) (f : Row F → F) : List (Row F) := ((List.range t.height).filter (fun i => f (t.row i) = 1)).map t.row

variable {L : List Op} {stale : List ℕ} {all : List Op} {m : ℕ}

/-! ### Rows and operations -/

theorem ops_range (L : List Op) : (List.range L.length).map (opAt L) = L := by
  refine List.ext_getElem (by simp) (fun i h1 h2 => ?_)
  rw [List.getElem_map, List.getElem_range]
  unfold opAt
  rw [List.getD_eq_getElem _ _ h2]

theorem filter_range (L : List Op) (p : Op → Bool) : ((List.range L.length).filter (fun i => p (opAt L i))).map (opAt L) = L.filter p := by
  conv_rhs => rw [← ops_range L, List.filter_map]
  rfl

theorem ctlWord_trace (i : ℕ) : ctlWord (traceRow L stale i) = wordCells ((opAt L i).addr, (opAt L i).value) := by
  unfold ctlWord wordCells words
  rw [trace_into (show ADDR_CONTEXT < 15 by decide), trace_into (show ADDR_SEGMENT < 15 by decide), trace_into (show ADDR_VIRTUAL < 15 by decide)]
  have : (List.range 8).map (fun j => traceRow L stale i (VALUE + j)) = (List.range 8).map (fun j => (((opAt L i).value / 2 ^ (32 * j) % 2 ^ 32 : ℕ) : F)) := by
    refine List.map_congr_left (fun j hj => ?_)
    have hj := List.mem_range.1 hj
    rw [trace_into (by simp only [VALUE]; omega), into_value _ hj]
  rw [this]; rfl

theorem ctlData_trace (i : ℕ) : ctlData (traceRow L stale i) = opCells (opAt L i) := by
  have h1 : ctlData (traceRow L stale i) = traceRow L stale i IS_READ :: (ctlWord (traceRow L stale i) ++ [traceRow L stale i TIMESTAMP]) := rfl
  rw [h1, ctlWord_trace, trace_into (show IS_READ < 15 by decide), trace_into (show TIMESTAMP < 15 by decide)]
  rfl

theorem after_trace (i : ℕ) : afterRow (traceRow L stale i) = 1 :: wordCells ((opAt L i).addr, (opAt L i).value) := by
  rw [← ctlWord_trace (stale := stale)]; rfl

theorem Final.mem_iff (h : Final all m L) {o : Op} : o ∈ all ↔ o ∈ L ∧ o.filter = true := by
  rw [← h.real.mem_iff, List.mem_filter]

theorem Final.length_le (h : Final all m L) : all.length ≤ L.length := by
  rw [← h.real.length_eq]; exact List.length_filter_le _ _

theorem Final.le_of (h : Final all m L) {i j : ℕ} (hij : i ≤ j) (hj : j < L.length) : Op.le (opAt L i) (opAt L j) = true := by
  rcases Nat.lt_or_eq_of_le hij with hlt | rfl
  · have := List.pairwise_iff_getElem.1 (chain_le h.chain) i j (by omega) hj hlt
    unfold opAt
    rwa [List.getD_eq_getElem _ _ (by omega), List.getD_eq_getElem _ _ hj]
  · rw [Op.le_iff]; omega

theorem exists_opAt {o : Op} (ho : o ∈ L) : ∃ i < L.length, opAt L i = o := by
  obtain ⟨i, hi, rfl⟩ := List.getElem_of_mem ho
  exact ⟨i, hi, by unfold opAt; rw [List.getD_eq_getElem _ _ hi]⟩

theorem Final.lt_last (h : Final all m L) {i : ℕ} (hi : i < L.length) (hf : (opAt L i).filter = true) : i + 1 < L.length := by
  by_contra hn
  have he : i = L.length - 1 := by omega
  have := h.last (opAt L i) (by
    unfold opAt
    rw [List.getLast?_eq_getElem?, ← he, List.getD_eq_getElem _ _ hi, List.getElem?_eq_getElem hi])
  rw [hf] at this
  cases this.1

/-! ### Bounds -/

theorem val_cast {k : ℕ} (hk : k < P) : ((k : ℕ) : F).val = k := by rw [ZMod.val_natCast, Nat.mod_eq_of_lt hk]

theorem flagged_rc (last : Bool) (lv nv : Row F) : flagged last lv nv RANGE_CHECK = if last then 0
     else if lv ADDR_CONTEXT ≠ nv ADDR_CONTEXT then nv ADDR_CONTEXT - lv ADDR_CONTEXT - 1
     else if lv ADDR_SEGMENT ≠ nv ADDR_SEGMENT ∧ ¬ lv ADDR_CONTEXT ≠ nv ADDR_CONTEXT then nv ADDR_SEGMENT - lv ADDR_SEGMENT - 1
     else if lv ADDR_VIRTUAL ≠ nv ADDR_VIRTUAL ∧ ¬ (lv ADDR_SEGMENT ≠ nv ADDR_SEGMENT ∧ ¬ lv ADDR_CONTEXT ≠ nv ADDR_CONTEXT) ∧
      ¬ lv ADDR_CONTEXT ≠ nv ADDR_CONTEXT then nv ADDR_VIRTUAL - lv ADDR_VIRTUAL - 1
     else nv TIMESTAMP - lv TIMESTAMP := rfl

theorem sub_one_cast {a b : ℕ} (h : a < b) : (b : F) - (a : F) - 1 = ((b - a - 1 : ℕ) : F) := by
  rw [Nat.cast_sub (by omega), Nat.cast_sub (by omega)]; simp

theorem Final.rc_lt (h : Final all m L) {i : ℕ} (hi : i < L.length) : (baseRow L i RANGE_CHECK).val < L.length := by
  have hpos := h.pos
  have hm := h.height
  have hP : L.length < P := by have := h.small; unfold P; omega
  rw [base_eq, flagged_rc]
  by_cases hl : i + 1 = L.length
  · rw [if_pos (by simpa using hl)]; simpa using hpos
  rw [if_neg (by simpa using hl)]
  have hi1 : i + 1 < L.length := by omega
  rw [Nat.mod_eq_of_lt hi1]
  have hg := h.good hi1
  obtain ⟨h1, h2, h3, h4⟩ := h.lt (opAt_mem hi)
  obtain ⟨h1', h2', h3', h4'⟩ := h.lt (opAt_mem hi1)
  have hle := Op.le_iff.1 hg.le
  rw [show ∀ o, intoRow o ADDR_CONTEXT = (o.ctx : F) from fun _ => rfl, show ∀ o, intoRow o ADDR_CONTEXT = (o.ctx : F) from fun _ => rfl,
    show ∀ o, intoRow o ADDR_SEGMENT = (o.seg : F) from fun _ => rfl, show ∀ o, intoRow o ADDR_SEGMENT = (o.seg : F) from fun _ => rfl,
    show ∀ o, intoRow o ADDR_VIRTUAL = (o.virt : F) from fun _ => rfl, show ∀ o, intoRow o ADDR_VIRTUAL = (o.virt : F) from fun _ => rfl,
    show ∀ o, intoRow o TIMESTAMP = (o.ts : F) from fun _ => rfl, show ∀ o, intoRow o TIMESTAMP = (o.ts : F) from fun _ => rfl]
  simp only [ne_eq, cast_inj h1 h1', cast_inj h2 h2', cast_inj h3 h3']
  by_cases hc : (opAt L i).ctx = (opAt L (i + 1)).ctx
  · rw [if_neg (fun e => e hc)]
    by_cases hs : (opAt L i).seg = (opAt L (i + 1)).seg
    · rw [if_neg (fun e => e.1 hs)]
      by_cases hv : (opAt L i).virt = (opAt L (i + 1)).virt
      · rw [if_neg (fun e => e.1 hv), ← Nat.cast_sub (by omega), val_cast (by omega)]
        have := hg.ts hc hs hv; omega
      · rw [if_pos ⟨hv, fun e => e.1 hs, fun e => e hc⟩, sub_one_cast (by omega), val_cast (by omega)]
        have := hg.virt hc hs hv; omega
    · rw [if_pos ⟨hs, fun e => e hc⟩, sub_one_cast (by omega), val_cast (by omega)]
      have := (hg.seg hc hs).1; omega
  · rw [if_pos hc, sub_one_cast (by omega), val_cast (by omega)]
    have := (hg.ctx hc).1; omega

theorem Final.inBounds (h : Final all m L) (hs : ∀ c ∈ stale, c < all.length) : inBounds L stale := by
  have hm := h.height
  refine ⟨fun i hi x hx => ?_, fun i hi => ?_, fun c hc => Nat.lt_of_lt_of_le (hs c hc) h.length_le⟩
  · unfold raised at hx
    rcases List.mem_cons.1 hx with rfl | hx
    · exact h.rc_lt hi
    · split at hx
      · rename_i hch
        rw [List.mem_singleton] at hx
        split at hx
        · rename_i hl
          have hi1 : i + 1 < L.length := by omega
          rw [base_into _ _ (by decide)] at hx
          rw [show intoRow (opAt L (i + 1)) ADDR_VIRTUAL = (((opAt L (i + 1)).virt : ℕ) : F) from rfl, val_cast (h.lt (opAt_mem hi1)).2.2.1] at hx
          have hg := h.good hi1
          obtain ⟨h1, h2, -⟩ := h.lt (opAt_mem hi)
          obtain ⟨h1', h2', -⟩ := h.lt (opAt_mem hi1)
          have e1 : baseRow L i CONTEXT_FIRST_CHANGE = if ((opAt L i).ctx : F) ≠ ((opAt L ((i + 1) % L.length)).ctx : F) then 1 else 0 := rfl
          have e2 : baseRow L i SEGMENT_FIRST_CHANGE = if ((opAt L i).seg : F) ≠ ((opAt L ((i + 1) % L.length)).seg : F) ∧
            ¬ ((opAt L i).ctx : F) ≠ ((opAt L ((i + 1) % L.length)).ctx : F) then 1 else 0 := rfl
          rw [e1, e2, Nat.mod_eq_of_lt hi1] at hch
          simp only [ne_eq, cast_inj h1 h1', cast_inj h2 h2'] at hch
          subst hx
          by_cases hc : (opAt L i).ctx = (opAt L (i + 1)).ctx
          · rw [if_neg (fun e => e hc)] at hch
            by_cases hs' : (opAt L i).seg = (opAt L (i + 1)).seg
            · rw [if_neg (fun e => e.1 hs')] at hch
              rcases hch with e | e <;> exact absurd e (by decide)
            · have := (hg.seg hc hs').2; omega
          · have := (hg.ctx hc).2; omega
        · rw [hx]; exact h.pos
      · cases hx
  · rw [base_into _ _ (by decide), show intoRow (opAt L i) ADDR_CONTEXT = (((opAt L i).ctx : ℕ) : F) from rfl, val_cast (h.lt (opAt_mem hi)).1]
    exact (h.bound _ (opAt_mem hi)).1

/-! ### The filters -/

theorem Final.marked_iff (h : Final all m L) {i : ℕ} (hi : i < L.length) : marked L stale i ↔ (opAt L i).ctx ∈ stale := by
  have hc := (h.bound _ (opAt_mem hi)).1
  have hP : L.length < P := by have := h.small; unfold P; omega
  unfold marked
  rw [base_into _ _ (by decide), show intoRow (opAt L i) ADDR_CONTEXT = (((opAt L i).ctx : ℕ) : F) from rfl, val_cast (by omega),
    show staleRow L stale (opAt L i).ctx STALE_CONTEXTS = if (opAt L i).ctx ∈ stale then ((opAt L i).ctx : F) + 1 else 0 from rfl]
  by_cases hs : (opAt L i).ctx ∈ stale
  · rw [if_pos hs]; exact iff_of_true rfl hs
  · rw [if_neg hs]
    refine iff_of_false (fun e => ?_) hs
    rw [← Nat.cast_one, ← Nat.cast_add, ← Nat.cast_zero, cast_inj (by omega) (by omega)] at e
    omega

theorem word_zero {v : ℕ} (hv : v < 2 ^ 256) (h : ∀ j < 8, v / 2 ^ (32 * j) % 2 ^ 32 = 0) : v = 0 := by
  have hk : ∀ k ≤ 8, v % 2 ^ (32 * k) = 0 := by
    intro k hk
    induction k with
    | zero => exact Nat.mod_one v
    | succ k ih => rw [show 32 * (k + 1) = 32 * k + 32 by ring, Nat.pow_add, Nat.mod_mul, ih (by omega), h k (by omega), Nat.mul_zero]
  rw [← hk 8 (Nat.le_refl _)]
  exact (Nat.mod_eq_of_lt hv).symm

theorem Final.keeps_iff (h : Final all m L) {i : ℕ} (hi : i < L.length) : keeps L i ↔ (opAt L i).value ≠ 0 ∨ ¬ StartsZero (opAt L i).seg := by
  have hv := (h.bound _ (opAt_mem hi)).2.2.2.2
  have hP : 2 ^ 32 < P := by unfold P; omega
  unfold keeps
  refine or_congr ?_ ?_
  · constructor
    · rintro ⟨j, hj, hne⟩ e
      rw [base_into _ _ (by simp only [VALUE]; omega), into_value _ hj, e] at hne
      simp at hne
    · intro hne
      by_contra hx
      push Not at hx
      refine hne (word_zero hv (fun j hj => ?_))
      have := hx j hj
      rw [base_into _ _ (by simp only [VALUE]; omega), into_value _ hj, ← Nat.cast_zero,
        cast_inj (lt_of_lt_of_le (Nat.mod_lt _ (by decide)) hP.le) (by omega)] at this
      exact this
  · rw [base_into _ _ (by decide), show intoRow (opAt L i) ADDR_SEGMENT = (((opAt L i).seg : ℕ) : F) from rfl, val_cast (h.lt (opAt_mem hi)).2.1]
    unfold StartsZero
    simp only [List.mem_cons, List.not_mem_nil, or_false, CODE, TRIE_DATA, ACCOUNTS_LINKED_LIST, STORAGE_LINKED_LIST]
    tauto

theorem Final.filter_iff (h : Final all m L) {i : ℕ} (hi : i < L.length) : traceRow L stale i MEM_AFTER_FILTER = 1 ↔
    (opAt L i).ctx ∉ stale ∧ ((opAt L i).filter = true ∧ (opAt L i).addr ≠ (opAt L (i + 1)).addr) ∧ ((opAt L i).value ≠ 0 ∨ ¬ StartsZero (opAt L i).seg) := by
  rw [trace_after]
  have h0 : (if ¬ marked L stale i ∧ lastHere L i ∧ keeps L i then (1 : F) else 0) = 1 ↔ ¬ marked L stale i ∧ lastHere L i ∧ keeps L i := by
    constructor
    · intro e; by_contra hx; rw [if_neg hx] at e; exact absurd e (by decide)
    · intro e; rw [if_pos e]
  rw [h0, h.marked_iff hi, h.keeps_iff hi, h.lastHere_iff hi]
  have : ((opAt L i).filter = true ∧ (opAt L i).addr ≠ (opAt L ((i + 1) % L.length)).addr) ↔ ((opAt L i).filter = true ∧ (opAt L i).addr ≠ (opAt L (i + 1)).addr) := by
    refine and_congr_right (fun hf => ?_)
    rw [Nat.mod_eq_of_lt (h.lt_last hi hf)]
  rw [this]

/-- The last row of an address holds its last operation. -/
theorem Final.last_iff (h : Final all m L) (hu : ∀ o ∈ all, ∀ o' ∈ all, o.addr = o'.addr → o.ts = o'.ts → o = o') (a : Addr) (v : ℕ) :
    FinalValue all a v ↔ ∃ i < L.length, ((opAt L i).filter = true ∧ (opAt L i).addr ≠ (opAt L (i + 1)).addr) ∧ (opAt L i).addr = a ∧ (opAt L i).value = v := by
  constructor
  · rintro ⟨o, ho, rfl, rfl, hmax⟩
    have hoL := (h.mem_iff.1 ho).1
    obtain ⟨j, hj, hjo⟩ := exists_opAt hoL
    -- the last row of the address
    have hex : ∃ k, k < L.length ∧ (opAt L k).addr = o.addr ∧ ∀ k' < L.length, (opAt L k').addr = o.addr → k' ≤ k := by
      have hne : ((List.range L.length).filter (fun k => decide ((opAt L k).addr = o.addr))) ≠ [] :=
        List.ne_nil_of_mem (List.mem_filter.2 ⟨List.mem_range.2 hj, decide_eq_true (by rw [hjo])⟩)
      obtain ⟨k, hk⟩ : ∃ k, ((List.range L.length).filter (fun k => decide ((opAt L k).addr = o.addr))).max? = some k := by
        cases hx : ((List.range L.length).filter (fun k => decide ((opAt L k).addr = o.addr))).max? with
        | none => exact absurd (List.max?_eq_none_iff.1 hx) hne
        | some k => exact ⟨k, rfl⟩
      obtain ⟨hk1, hk2⟩ := List.max?_eq_some_iff.1 hk
      obtain ⟨hk1, hk3⟩ := List.mem_filter.1 hk1
      exact ⟨k, List.mem_range.1 hk1, by simpa using hk3, fun k' hk' ha => hk2 k' (List.mem_filter.2 ⟨List.mem_range.2 hk', decide_eq_true ha⟩)⟩
    obtain ⟨k, hk, hka, hkm⟩ := hex
    have hts : ∀ y ∈ L, y.addr = o.addr → y.ts ≤ (opAt L k).ts := by
      intro y hy hya
      obtain ⟨l, hl, rfl⟩ := exists_opAt hy
      have := Op.le_iff.1 (h.le_of (hkm l hl hya) hk)
      have e := hya.trans hka.symm
      unfold Op.addr at e
      simp only [Prod.mk.injEq] at e
      omega
    have hf : (opAt L k).filter = true := by
      by_contra hf
      rcases h.covered _ (opAt_mem hk) (by simpa using hf) with hc | ⟨y, hy, hya, hyt⟩
      · exact hc o ho hka.symm
      · have := hts y hy (hya.trans hka); omega
    have hko : opAt L k = o := by
      have hmem : opAt L k ∈ all := h.mem_iff.2 ⟨opAt_mem hk, hf⟩
      refine hu _ hmem o ho hka ?_
      have h1 := hmax _ hmem hka
      have h2 := hts o hoL rfl
      omega
    refine ⟨k, hk, ⟨hf, fun e => ?_⟩, by rw [hko], by rw [hko]⟩
    have := hkm (k + 1) (h.lt_last hk hf) (e.symm.trans hka)
    omega
  · rintro ⟨i, hi, ⟨hf, hne⟩, rfl, rfl⟩
    refine ⟨opAt L i, h.mem_iff.2 ⟨opAt_mem hi, hf⟩, rfl, rfl, fun o' ho' ha => ?_⟩
    obtain ⟨k, hk, rfl⟩ := exists_opAt (h.mem_iff.1 ho').1
    by_cases hki : k ≤ i
    · have := Op.le_iff.1 (h.le_of hki hi)
      unfold Op.addr at ha
      simp only [Prod.mk.injEq] at ha
      omega
    · exfalso
      have h1 := Op.le_iff.1 (h.le_of (show i ≤ i + 1 by omega) (h.lt_last hi hf))
      have h2 := Op.le_iff.1 (h.le_of (show i + 1 ≤ k by omega) hk)
      unfold Op.addr at ha hne
      simp only [ne_eq, Prod.mk.injEq] at ha hne
      omega

/-- The words handed over, in the order of their addresses. -/
def handed (L : List Op) (stale : List ℕ) : List (Addr × ℕ) :=
  ((List.range L.length).filter (fun i => traceRow L stale i MEM_AFTER_FILTER = 1)).map (fun i => ((opAt L i).addr, (opAt L i).value))

theorem Final.handed_mem (h : Final all m L) (hu : ∀ o ∈ all, ∀ o' ∈ all, o.addr = o'.addr → o.ts = o'.ts → o = o') (a : Addr) (v : ℕ) :
    (a, v) ∈ handed L stale ↔ FinalValue all a v ∧ a.1 ∉ stale ∧ (v ≠ 0 ∨ ¬ StartsZero a.2.1) := by
  unfold handed
  rw [List.mem_map]
  constructor
  · rintro ⟨i, hi, he⟩
    obtain ⟨hi, hf⟩ := List.mem_filter.1 hi
    have hi := List.mem_range.1 hi
    rw [decide_eq_true_iff, h.filter_iff hi] at hf
    simp only [Prod.mk.injEq] at he
    obtain ⟨rfl, rfl⟩ := he
    exact ⟨(h.last_iff hu _ _).2 ⟨i, hi, hf.2.1, rfl, rfl⟩, hf.1, hf.2.2⟩
  · rintro ⟨hv, hs, hk⟩
    obtain ⟨i, hi, hl, rfl, rfl⟩ := (h.last_iff hu a v).1 hv
    exact ⟨i, List.mem_filter.2 ⟨List.mem_range.2 hi, decide_eq_true ((h.filter_iff hi).2 ⟨hs, hl, hk⟩)⟩, rfl⟩

theorem Final.handed_sorted (h : Final all m L) : (handed L stale).Pairwise (fun x y => Addr.lt x.1 y.1) := by
  unfold handed
  rw [List.pairwise_map]
  have hp : ((List.range L.length).filter (fun i => decide (traceRow L stale i MEM_AFTER_FILTER = 1))).Pairwise (fun i j => i < j) :=
    List.pairwise_lt_range.filter _
  refine hp.imp_of_mem (fun {i j} hi hj hij => ?_)
  obtain ⟨hi, hf⟩ := List.mem_filter.1 hi
  obtain ⟨hj, -⟩ := List.mem_filter.1 hj
  have hi := List.mem_range.1 hi
  have hj := List.mem_range.1 hj
  rw [decide_eq_true_iff, h.filter_iff hi] at hf
  have hne := hf.2.1.2
  have h1 := Op.le_iff.1 (h.le_of (show i ≤ i + 1 by omega) (h.lt_last hi hf.2.1.1))
  have h2 := Op.le_iff.1 (h.le_of (show i + 1 ≤ j by omega) hj)
  unfold Addr.lt
  unfold Op.addr at hne ⊢
  simp only [ne_eq, Prod.mk.injEq] at hne
  show (opAt L i).ctx < (opAt L j).ctx ∨ (opAt L i).ctx = (opAt L j).ctx ∧ ((opAt L i).seg < (opAt L j).seg ∨ (opAt L i).seg = (opAt L j).seg ∧
    (opAt L i).virt < (opAt L j).virt)
  omega

theorem selected_map {α : Type} (t : Trace) (f : Row F → F) (g : Row F → α) :
    (selected t f).map g = ((List.range t.height).filter (fun i => f (t.row i) = 1)).map (fun i => g (t.row i)) := by
  unfold selected; rw [List.map_map]; rfl

/-! ### The table -/

section
variable {init : Addr → ℕ} {before : List (Addr × ℕ)} {ops : List Op}

theorem sorted_length (l : List Op) : (sorted l).length = l.length := (sorted_perm l).length_eq

theorem final_pow {l L : List Op} (h : finalOps l = some L) : ∃ k, L.length = 2 ^ k := by
  unfold finalOps at h
  split at h
  · cases h
  · unfold padOps at h
    rw [Option.map_map, Option.map_eq_some_iff] at h
    obtain ⟨o, -, rfl⟩ := h
    rw [Function.comp_apply, sorted_length, List.length_append, List.length_replicate]
    refine ⟨Nat.clog 2 ((sorted (fillGaps (sorted l))).length + 1), ?_⟩
    have := nextPow_ge ((sorted (fillGaps (sorted l))).length + 1)
    unfold Logic.nextPow at this ⊢
    omega

/-- **C96.** For every history of memory operations, the memory table is generated, and the verifier accepts it. The operations it shows to the other tables
are those of the history and the writes of the initial values; those it shows to the initial memory are the initial values; the contexts it shows as pruned
are the stale ones; and the words it hands over are the final values of the words in use, except those of stale contexts and, in segments that start zeroed,
those that are zero. -/
theorem C96_generation (h : History init before ops) (hs : Sized before ops) (hn : stale.Nodup) (hb : ∀ c ∈ stale, c < (allOps ops before).length) :
    ∃ t, generate ops before stale = some t ∧ Accepted t.height t.row ∧ (∃ k, t.height = 2 ^ k) ∧
      ((selected t (· FILTER)).map ctlData).Perm (ops.map opCells ++ before.map (fun v => opCells (initial v))) ∧
      ((selected t beforeFilter).map ctlWord).Perm (before.map wordCells) ∧
      ((selected t (· IS_PRUNED)).map prunedContext).Perm (stale.map (fun c : ℕ => (c : F))) ∧
      ∃ vals : List (Addr × ℕ), t.after = vals.map (fun v => 1 :: wordCells v) ∧ (selected t (· MEM_AFTER_FILTER)).map ctlWord = vals.map wordCells ∧
        vals.Pairwise (fun x y => Addr.lt x.1 y.1) ∧
        ∀ a v, (a, v) ∈ vals ↔ FinalValue (allOps ops before) a v ∧ a.1 ∉ stale ∧ (v ≠ 0 ∨ ¬ StartsZero a.2.1) := by
  obtain ⟨m, L, hL, hF⟩ := final_exists h hs
  have hbd : Memory.inBounds L stale := hF.inBounds hb
  have hP : L.length < P := by have := hF.small; unfold P; omega
  refine ⟨⟨L.length, traceRow L stale, ((List.range L.length).filter (fun i => traceRow L stale i MEM_AFTER_FILTER = 1)).map
    (fun i => afterRow (traceRow L stale i))⟩, ?_, hF.accepted hbd, final_pow hL, ?_, ?_, ?_, handed L stale, ?_, ?_, hF.handed_sorted, ?_⟩
  · unfold generate
    rw [show finalOps (ops ++ before.map initial) = some L from hL]
    exact if_pos hbd
  · rw [selected_map]
    simp only [ctlData_trace]
    have e : (List.range L.length).filter (fun i => decide (traceRow L stale i FILTER = 1)) = (List.range L.length).filter (fun i => (opAt L i).filter) := by
      refine List.filter_congr (fun i _ => ?_)
      rw [trace_into (by decide), show intoRow (opAt L i) FILTER = if (opAt L i).filter then (1 : F) else 0 from rfl]
      cases (opAt L i).filter <;> simp
    show (((List.range L.length).filter (fun i => decide (traceRow L stale i FILTER = 1))).map (opCells ∘ opAt L)).Perm _
    rw [e, ← List.map_map, filter_range L (fun o => o.filter)]
    have := hF.real.map opCells
    unfold allOps at this
    rwa [List.map_append, List.map_map] at this
  · rw [selected_map]
    simp only [ctlWord_trace]
    have e : (List.range L.length).filter (fun i => decide (beforeFilter (traceRow L stale i) = 1)) =
        (List.range L.length).filter (fun i => decide ((opAt L i).ts = 0)) := by
      refine List.filter_congr (fun i hi => ?_)
      have hi := List.mem_range.1 hi
      have hts := (hF.lt (opAt_mem hi)).2.2.2
      unfold beforeFilter
      rw [trace_into (by decide), trace_into (by decide), show intoRow (opAt L i) TIMESTAMP = ((opAt L i).ts : F) from rfl,
        show intoRow (opAt L i) TIMESTAMP_INV = ((opAt L i).ts : F)⁻¹ from rfl]
      congr 1
      rw [eq_iff_iff]
      by_cases h0 : (opAt L i).ts = 0
      · rw [h0]; exact iff_of_true (by simp) rfl
      · have hne : ((opAt L i).ts : F) ≠ 0 := by
          rw [← Nat.cast_zero, Ne, cast_inj hts (by unfold P; omega)]; exact h0
        rw [mul_neg, mul_inv_cancel₀ hne]
        refine iff_of_false (by decide) h0
    show (((List.range L.length).filter (fun i => decide (beforeFilter (traceRow L stale i) = 1))).map ((fun o => wordCells (o.addr, o.value)) ∘ opAt L)).Perm _
    rw [e, ← List.map_map, filter_range L (fun o => decide (o.ts = 0))]
    have e2 : L.filter (fun o => decide (o.ts = 0)) = (L.filter (·.filter)).filter (fun o => decide (o.ts = 0)) := by
      rw [List.filter_filter]
      refine List.filter_congr (fun o ho => ?_)
      cases hf : o.filter with
      | true => simp
      | false => have := (hF.dummy o ho hf).2; simp; omega
    have e3 : (allOps ops before).filter (fun o => decide (o.ts = 0)) = before.map initial := by
      unfold allOps
      have he : ops.filter (fun o => decide (o.ts = 0)) = [] := List.filter_eq_nil_iff.2 (fun o ho => by have := h.later o ho; simp; omega)
      rw [List.filter_append, he, List.nil_append, List.filter_eq_self]
      intro o ho
      obtain ⟨v, -, rfl⟩ := List.mem_map.1 ho
      rfl
    rw [e2]
    have := (hF.real.filter (fun o => decide (o.ts = 0))).map (fun o => wordCells (o.addr, o.value))
    rw [e3, List.map_map] at this
    exact this
  · rw [selected_map]
    have e : (List.range L.length).filter (fun i => decide (traceRow L stale i IS_PRUNED = 1)) = (List.range L.length).filter (fun i => decide (i ∈ stale)) := by
      refine List.filter_congr (fun i _ => ?_)
      rw [show traceRow L stale i IS_PRUNED = if i ∈ stale then (1 : F) else 0 from rfl]
      by_cases hi : i ∈ stale <;> simp [hi]
    show (((List.range L.length).filter (fun i => decide (traceRow L stale i IS_PRUNED = 1))).map _).Perm _
    rw [e]
    have e2 : ((List.range L.length).filter (fun i => decide (i ∈ stale))).map (fun i => prunedContext (traceRow L stale i)) =
        ((List.range L.length).filter (fun i => decide (i ∈ stale))).map (fun c : ℕ => (c : F)) := by
      refine List.map_congr_left (fun i hi => ?_)
      have hi : i ∈ stale := by simpa using (List.mem_filter.1 hi).2
      unfold prunedContext
      rw [show traceRow L stale i STALE_CONTEXTS = if i ∈ stale then (i : F) + 1 else 0 from rfl, if_pos hi]
      ring
    refine (List.Perm.of_eq e2).trans (List.Perm.map _ ?_)
    refine (List.perm_ext_iff_of_nodup (List.nodup_range.filter _) hn).2 (fun c => ?_)
    rw [List.mem_filter, List.mem_range, decide_eq_true_iff]
    exact ⟨And.right, fun hc => ⟨hbd.2.2 c hc, hc⟩⟩
  · unfold handed
    rw [List.map_map]
    exact List.map_congr_left (fun i _ => after_trace i)
  · rw [selected_map]
    unfold handed
    rw [List.map_map]
    exact List.map_congr_left (fun i _ => ctlWord_trace i)
  · exact hF.handed_mem h.unique'

end

end Verif.Stark.Memory
