import Verif.Stark.Counter
import Verif.Stark.Logic

/-! The byte packing table: sequences of up to 32 bytes read from or written to memory as one word.
`evm_arithmetization/src/byte_packing/byte_packing_stark.rs`, `columns.rs`. Properties C87 and C88. -/

namespace Verif.Stark.BytePacking

open Finset Arith

/-! ### Columns (`byte_packing/columns.rs:14-40`) -/

/-- `is_read`. `columns.rs:16`. -/
abbrev IS_READ : ℕ := 0
/-- `index_len[i]`. `columns.rs:21`. -/
abbrev LEN (i : ℕ) : ℕ := 1 + i
/-- `addr_context`. `columns.rs:23`. -/
abbrev CTX : ℕ := 33
/-- `addr_segment`. `columns.rs:24`. -/
abbrev SEG : ℕ := 34
/-- `addr_virtual`. `columns.rs:25`. -/
abbrev VIRT : ℕ := 35
/-- `timestamp`. `columns.rs:26`. -/
abbrev TS : ℕ := 36
/-- `value_bytes[i]`. `columns.rs:31`. -/
abbrev BYTE (i : ℕ) : ℕ := 37 + i
/-- `range_counter`. `columns.rs:35`. -/
abbrev COUNTER : ℕ := 69
/-- `rc_frequencies`. `columns.rs:37`. -/
abbrev FREQ : ℕ := 70

variable {R : Type} [CommRing R]

/-- The sum of the length flags: the filter of the rows the CPU looks into. `ctl_looked_filter`, `byte_packing_stark.rs:95-101`, and
`current_filter`, 322. -/
def filter (lv : Row R) : R := ((List.range 32).map (fun i => lv (LEN i))).sum

/-- `BytePackingStark::eval_packed_generic`. `byte_packing_stark.rs:296-351`. The circuit version `eval_ext_circuit` is not modelled. -/
def evalPacking (lv nv : Row R) : List (Constr R) :=
  let incr := nv COUNTER - lv COUNTER
  [⟨.first, lv COUNTER⟩, ⟨.transition, incr * incr - incr⟩, ⟨.last, lv COUNTER - 255⟩] ++
  [⟨.always, filter lv * (filter lv - 1)⟩, ⟨.first, filter lv - 1⟩, ⟨.always, lv IS_READ * (lv IS_READ - 1)⟩] ++
  (List.range 32).map (fun i => ⟨.always, lv (LEN i) * (lv (LEN i) - 1)⟩) ++
  [⟨.transition, filter nv * (filter nv - filter lv)⟩] ++
  (List.range 31).flatMap (fun i => (List.range' (i + 1) (31 - i)).map (fun j => ⟨.always, lv (LEN i) * lv (BYTE j)⟩))

/-- The lookups: all bytes, unfiltered, in the counter. `lookups`, `byte_packing_stark.rs:426-437`. -/
def looking (T : ℕ → Row F) : List Looking := (List.range 32).map (fun j => ⟨fun i => T i (BYTE j), fun _ => 1⟩)

/-- A trace of height `n` the verifier accepts, as far as the table itself is concerned. -/
structure Accepted (n : ℕ) (T : ℕ → Row F) : Prop where
  constraints : Satisfies evalPacking n T
  lookup : LogUp n (looking T) (fun i => T i COUNTER) (fun i => T i FREQ)

/-- `sequence_len` as the CPU sees it. `ctl_looked_data`, `byte_packing_stark.rs:74-79`. -/
def seqLen (lv : Row R) : R := ((List.range 32).map (fun i => ((i + 1 : ℕ) : R) * lv (LEN i))).sum

/-- The `k`-th word of thirty-two bits the CPU sees. `ctl_looked_data`, `byte_packing_stark.rs:63-72`. -/
def limb (lv : Row R) (k : ℕ) : R := ((List.range 4).map (fun j => ((256 ^ j : ℕ) : R) * lv (BYTE (4 * k + j)))).sum

/-- One memory access: what the table hands to the memory table; the seven upper limbs of the value are zero.
`byte_packing_stark.rs:105-141`. -/
structure Access where
  isRead : F
  ctx : F
  seg : F
  virt : F
  byte : F
  ts : F
  deriving DecidableEq

/-- `ctl_looking_memory(i)`. `byte_packing_stark.rs:105-141`. -/
def memAccess (lv : Row F) (i : ℕ) : Access :=
  ⟨lv IS_READ, lv CTX, lv SEG, lv VIRT + ((List.range 32).map (fun j => ((j : ℕ) : F) * lv (LEN j))).sum + (-1) * (i : F), lv (BYTE i), lv TS⟩

/-- `ctl_looking_memory_filter(i)`. `byte_packing_stark.rs:145-149`. -/
def memFilter (lv : Row F) (i : ℕ) : F := ((List.range' i (32 - i)).map (fun k => lv (LEN k))).sum

/-! ### Specification -/

/-- A packed sequence as the CPU looks it up: direction, address, time, number of bytes and the word. -/
structure Packed where
  isRead : F
  ctx : F
  seg : F
  virt : F
  ts : F
  len : ℕ
  value : ℕ

/-- The `p`-th byte of a number written with `len` bytes, most significant byte first. -/
def byteBE (len value p : ℕ) : ℕ := value / 256 ^ (len - 1 - p) % 256

/-- The access to the `p`-th byte of a packed sequence. -/
def Packed.access (e : Packed) (p : ℕ) : Access := ⟨e.isRead, e.ctx, e.seg, e.virt + (p : F), (byteBE e.len e.value p : F), e.ts⟩

/-- A row shows the CPU a packed sequence. `ctl_looked_data`, `ctl_looked_filter`, `byte_packing_stark.rs:59-93, 96-102`. -/
def Shows (lv : Row F) (e : Packed) : Prop :=
  filter lv = 1 ∧ lv IS_READ = e.isRead ∧ lv CTX = e.ctx ∧ lv SEG = e.seg ∧ lv VIRT = e.virt ∧ seqLen lv = (e.len : F) ∧ e.len < P ∧ lv TS = e.ts ∧
    e.value < 2 ^ 256 ∧ ∀ k < 8, limb lv k = ((e.value / 2 ^ (32 * k) % 2 ^ 32 : ℕ) : F)

/-- The table exports a packed sequence to the CPU. -/
def Exports (n : ℕ) (T : ℕ → Row F) (e : Packed) : Prop := ∃ i < n, Shows (T i) e

/-- The table accesses memory. -/
def Accesses (n : ℕ) (T : ℕ → Row F) (a : Access) : Prop := ∃ i < n, ∃ j < 32, memFilter (T i) j = 1 ∧ memAccess (T i) j = a

/-! ### What the constraints say -/

/-- What the constraints say about one row. -/
structure RowOk (lv : Row F) : Prop where
  filter : filter lv = 0 ∨ filter lv = 1
  read : lv IS_READ = 0 ∨ lv IS_READ = 1
  len : ∀ i < 32, lv (LEN i) = 0 ∨ lv (LEN i) = 1
  high : ∀ i < 31, ∀ j, i < j → j < 32 → lv (LEN i) * lv (BYTE j) = 0

/-- What the constraints say about two consecutive rows. -/
structure NextOk (lv nv : Row F) : Prop where
  incr : (nv COUNTER - lv COUNTER) * (nv COUNTER - lv COUNTER) - (nv COUNTER - lv COUNTER) = 0
  pad : BytePacking.filter nv * (BytePacking.filter nv - BytePacking.filter lv) = 0

theorem bit_iff {x : F} : x * (x - 1) = 0 ↔ x = 0 ∨ x = 1 := by rw [mul_eq_zero, sub_eq_zero]

/-- The constraints, sorted by the rows they speak about. -/
theorem sat_iff {n : ℕ} {T : ℕ → Row F} : Satisfies evalPacking n T ↔ ∀ i < n,
    RowOk (T i) ∧ (i = 0 → T i COUNTER = 0 ∧ filter (T i) = 1) ∧ (i + 1 ≠ n → NextOk (T i) (T ((i + 1) % n))) ∧ (i + 1 = n → T i COUNTER = 255) := by
  unfold Satisfies evalPacking
  refine forall_congr' (fun i => forall_congr' (fun hi => ?_))
  simp only [List.forall_mem_append, List.forall_mem_map, List.forall_mem_flatMap, List.forall_mem_cons, List.not_mem_nil, false_imp_iff, implies_true,
    and_true, When.applies, true_imp_iff, List.mem_range, List.mem_range'_1, bit_iff, sub_eq_zero (b := (255 : F)), sub_eq_zero (b := (1 : F))]
  constructor
  · rintro ⟨⟨⟨⟨⟨h1, h2, h3⟩, h4, h5, h6⟩, h7⟩, h8⟩, h9⟩
    exact ⟨⟨h4, h6, h7, fun a ha b hb hb' => h9 a ha b ⟨by omega, by omega⟩⟩, fun h => ⟨h1 h, h5 h⟩, fun h => ⟨h2 h, h8 h⟩, h3⟩
  · rintro ⟨⟨h4, h6, h7, h9⟩, h1, h2, h3⟩
    exact ⟨⟨⟨⟨⟨fun h => (h1 h).1, fun h => (h2 h).incr, h3⟩, h4, fun h => (h1 h).2, h6⟩, h7⟩, fun h => (h2 h).pad⟩,
      fun a ha b hb => h9 a ha b (by omega) (by omega)⟩

/-- Every byte cell holds a byte. -/
theorem bytes {n : ℕ} {T : ℕ → Row F} (h : Accepted n T) (hn : 32 * n < P) {i : ℕ} (hi : i < n) {j : ℕ} (hj : j < 32) :
    ∃ x : ℕ, x < 256 ∧ T i (BYTE j) = (x : F) := by
  have hs := sat_iff.1 h.constraints
  obtain ⟨k, hk, he⟩ := h.lookup.mem (l := ⟨fun i => T i (BYTE j), fun _ => 1⟩) (i := i)
    (by intro l hl k _; obtain ⟨a, -, rfl⟩ := List.mem_map.1 hl; exact .inr rfl) (by simpa [looking] using hn)
    (List.mem_map.2 ⟨j, List.mem_range.2 hj, rfl⟩) hi rfl
  obtain ⟨x, hx, e⟩ := counter_bound (c := fun i => T i COUNTER) (n := n) (m := 255) (by omega) (by decide) ((hs 0 (by omega)).2.1 rfl).1
    (fun a ha => by have := ((hs a (by omega)).2.2.1 (by omega)).incr; rwa [Nat.mod_eq_of_lt ha] at this)
    (by have := (hs (n - 1) (by omega)).2.2.2 (by omega); simpa using this) k hk
  exact ⟨x, by omega, he.symm.trans e⟩

theorem list_range_sum (f : ℕ → F) (m : ℕ) : ((List.range m).map f).sum = ∑ i ∈ range m, f i := by
  induction m with
  | zero => simp
  | succ m ih => rw [List.range_succ, List.map_append, List.sum_append, ih, sum_range_succ]; simp

/-- One flag is set. -/
structure LenIs (lv : Row F) (l : ℕ) : Prop where
  lt : l < 32
  one : lv (LEN l) = 1
  zero : ∀ i < 32, i ≠ l → lv (LEN i) = 0

theorem LenIs.sum {lv : Row F} {l : ℕ} (h : LenIs lv l) (f : ℕ → F) : ((List.range 32).map (fun i => f i * lv (LEN i))).sum = f l := by
  rw [list_range_sum, sum_eq_single l (fun i hi hne => by rw [h.zero i (mem_range.1 hi) hne, mul_zero]) (fun hn => absurd (mem_range.2 h.lt) hn),
    h.one, mul_one]

theorem LenIs.filter {lv : Row F} {l : ℕ} (h : LenIs lv l) : filter lv = 1 := by
  have := h.sum (fun _ => 1)
  simp only [one_mul] at this
  exact this

theorem LenIs.memFilter {lv : Row F} {l : ℕ} (h : LenIs lv l) {j : ℕ} (hj : j < 32) : memFilter lv j = if j ≤ l then 1 else 0 := by
  unfold BytePacking.memFilter
  have e : ∀ m s, ((List.range' s m).map (fun k => lv (LEN k))).sum = ∑ k ∈ range m, lv (LEN (s + k)) := by
    intro m
    induction m with
    | zero => simp
    | succ m ih => intro s; rw [List.range'_concat, List.map_append, List.sum_append, ih, sum_range_succ]; simp
  rw [e]
  have hl := h.lt
  by_cases hjl : j ≤ l
  · rw [if_pos hjl, sum_eq_single (l - j) (fun k hk hne => h.zero _ (by have := mem_range.1 hk; omega) (by omega))
      (fun hn => absurd (mem_range.2 (by omega)) hn), show j + (l - j) = l by omega, h.one]
  · rw [if_neg hjl]
    exact sum_eq_zero (fun k hk => h.zero _ (by have := mem_range.1 hk; omega) (by omega))

theorem RowOk.lenIs {lv : Row F} (h : RowOk lv) (hf : BytePacking.filter lv = 1) : ∃ l, LenIs lv l := by
  have hsum : BytePacking.filter lv = ∑ i ∈ range 32, lv (LEN i) := list_range_sum _ 32
  by_cases hex : ∃ l < 32, lv (LEN l) = 1
  · obtain ⟨l, hl, h1⟩ := hex
    exact ⟨l, hl, h1, only_of_sum (by decide) h.len (by rw [← hsum]; exact .inr hf) hl h1⟩
  · push Not at hex
    rw [hsum, sum_eq_zero (fun i hi => (h.len i (mem_range.1 hi)).resolve_right (hex i (mem_range.1 hi)))] at hf
    exact absurd hf zero_ne_one

theorem RowOk.memFilter_zero {lv : Row F} (h : RowOk lv) (hf : BytePacking.filter lv = 0) {j : ℕ} (hj : j < 32) : memFilter lv j = 0 := by
  have hall : ∀ i < 32, lv (LEN i) = 0 := by
    intro i hi
    rcases h.len i hi with h0 | h1
    · exact h0
    · have hsum : BytePacking.filter lv = ∑ i ∈ range 32, lv (LEN i) := list_range_sum _ 32
      have := LenIs.filter ⟨hi, h1, only_of_sum (by decide) h.len (by rw [← hsum]; exact .inl hf) hi h1⟩
      rw [hf] at this
      exact absurd this zero_ne_one
  unfold memFilter
  refine List.sum_eq_zero (fun x hx => ?_)
  obtain ⟨k, hk, rfl⟩ := List.mem_map.1 hx
  rw [List.mem_range'_1] at hk
  exact hall k (by omega)

/-- The bytes of a number are those of its words. -/
theorem byte_word (v k : ℕ) {j : ℕ} (hj : j < 4) : v / 256 ^ (4 * k + j) % 256 = v / 2 ^ (32 * k) % 2 ^ 32 / 256 ^ j % 256 := by
  rw [pow_add, pow_mul, show (256 : ℕ) ^ 4 = 2 ^ 32 by norm_num, ← pow_mul, ← Nat.div_div_eq_div_mul]
  generalize v / 2 ^ (32 * k) = w
  obtain rfl | rfl | rfl | rfl : j = 0 ∨ j = 1 ∨ j = 2 ∨ j = 3 := by omega
  all_goals norm_num
  all_goals omega

theorem limb_four (lv : Row F) (k : ℕ) : limb lv k = lv (BYTE (4 * k)) + 256 * lv (BYTE (4 * k + 1)) + 65536 * lv (BYTE (4 * k + 2)) +
    16777216 * lv (BYTE (4 * k + 3)) := by
  unfold limb
  simp only [show List.range 4 = [0, 1, 2, 3] from rfl, List.map_cons, List.map_nil, List.sum_cons, List.sum_nil, Nat.cast_pow, Nat.cast_ofNat, add_zero]
  ring

/-- The words the CPU sees determine the byte cells. -/
theorem shown_byte {lv : Row F} (hb : ∀ j < 32, ∃ x < 256, lv (BYTE j) = ((x : ℕ) : F)) {value : ℕ}
    (hw : ∀ k < 8, limb lv k = ((value / 2 ^ (32 * k) % 2 ^ 32 : ℕ) : F)) {j : ℕ} (hj : j < 32) : lv (BYTE j) = ((value / 256 ^ j % 256 : ℕ) : F) := by
  have h := hw (j / 4) (by omega)
  obtain ⟨x0, h0, e0⟩ := hb (4 * (j / 4)) (by omega)
  obtain ⟨x1, h1, e1⟩ := hb (4 * (j / 4) + 1) (by omega)
  obtain ⟨x2, h2, e2⟩ := hb (4 * (j / 4) + 2) (by omega)
  obtain ⟨x3, h3, e3⟩ := hb (4 * (j / 4) + 3) (by omega)
  rw [limb_four, e0, e1, e2, e3] at h
  have hlt : value / 2 ^ (32 * (j / 4)) % 2 ^ 32 < 2 ^ 32 := Nat.mod_lt _ (by decide)
  have hnat : x0 + 256 * x1 + 65536 * x2 + 16777216 * x3 = value / 2 ^ (32 * (j / 4)) % 2 ^ 32 :=
    lift_nat (by rw [← h]; push_cast; ring) (by unfold P; omega) (by unfold P; omega)
  have hj4 : j = 4 * (j / 4) + j % 4 := by omega
  rw [hj4, byte_word value (j / 4) (show j % 4 < 4 by omega), ← hnat]
  have : j % 4 = 0 ∨ j % 4 = 1 ∨ j % 4 = 2 ∨ j % 4 = 3 := by omega
  rcases this with e | e | e | e <;> rw [e]
  · rw [add_zero, e0]; congr 1; norm_num; omega
  · rw [e1]; congr 1; norm_num; omega
  · rw [e2]; congr 1; norm_num; omega
  · rw [e3]; congr 1; norm_num; omega

/-- The words of a row whose byte cells are the bytes of `v`. -/
theorem limb_of_bytes {lv : Row F} {v : ℕ} (hb : ∀ j < 32, lv (BYTE j) = ((v / 256 ^ j % 256 : ℕ) : F)) {k : ℕ} (hk : k < 8) :
    limb lv k = ((v / 2 ^ (32 * k) % 2 ^ 32 : ℕ) : F) := by
  rw [limb_four, hb _ (by omega), hb _ (by omega), hb _ (by omega), hb _ (by omega), byte_word v k (show 1 < 4 by decide), byte_word v k (show 2 < 4 by decide),
    byte_word v k (show 3 < 4 by decide), show 4 * k = 4 * k + 0 from rfl, byte_word v k (show 0 < 4 by decide)]
  have hw : v / 2 ^ (32 * k) % 2 ^ 32 < 2 ^ 32 := Nat.mod_lt _ (by decide)
  generalize v / 2 ^ (32 * k) % 2 ^ 32 = w at hw ⊢
  have : w = w / 256 ^ 0 % 256 + 256 * (w / 256 ^ 1 % 256) + 65536 * (w / 256 ^ 2 % 256) + 16777216 * (w / 256 ^ 3 % 256) := by
    norm_num
    norm_num at hw
    omega
  conv_rhs => rw [this]
  push_cast
  ring

/-- A number below `256 ^ m` whose bytes from `l` on are zero is below `256 ^ l`. -/
theorem lt_of_bytes {v m l : ℕ} (hv : v < 256 ^ m) (h : ∀ j, l ≤ j → j < m → v / 256 ^ j % 256 = 0) : v < 256 ^ l := by
  by_cases hlm : l < m
  · induction m with
    | zero => omega
    | succ m ih =>
      have h1 := h m (by omega) (by omega)
      have h2 : v / 256 ^ m < 256 := by rw [Nat.div_lt_iff_lt_mul (by positivity), mul_comm, ← pow_succ]; exact hv
      have h3 : v < 256 ^ m := by
        rw [← Nat.div_eq_zero_iff_lt (by positivity), ← Nat.mod_eq_of_lt h2]; exact h1
      by_cases hlm' : l < m
      · exact ih h3 (fun j hj hj' => h j hj (by omega)) hlm'
      · rwa [show l = m by omega]
  · exact lt_of_lt_of_le hv (Nat.pow_le_pow_right (by decide) (by omega))

/-! ### Soundness -/

/-- Property C87, row by row: a row that shows the CPU a packed sequence has a length from 1 to 32 and a word of this length, and hands the memory
table exactly the accesses to its bytes, in the order of their addresses, most significant byte first. -/
theorem C87_row {n : ℕ} {T : ℕ → Row F} (h : Accepted n T) (hn : 32 * n < P) {i : ℕ} (hi : i < n) {e : Packed} (hs : Shows (T i) e) :
    (e.isRead = 0 ∨ e.isRead = 1) ∧ 1 ≤ e.len ∧ e.len ≤ 32 ∧ e.value < 256 ^ e.len ∧
    (∀ p < e.len, memFilter (T i) (e.len - 1 - p) = 1 ∧ memAccess (T i) (e.len - 1 - p) = e.access p) ∧
    ∀ j, e.len ≤ j → j < 32 → memFilter (T i) j = 0 := by
  obtain ⟨hrow, -⟩ := sat_iff.1 h.constraints i hi
  obtain ⟨hf, hr, hc, hg, hv, hl, hlP, ht, hval, hw⟩ := hs
  obtain ⟨l, hL⟩ := hrow.lenIs hf
  have hlen : e.len = l + 1 := by
    have := hL.lt
    refine lift_nat ?_ hlP (by unfold P; omega)
    rw [← hl]
    exact hL.sum (fun i => ((i + 1 : ℕ) : F))
  have hb : ∀ j < 32, T i (BYTE j) = ((e.value / 256 ^ j % 256 : ℕ) : F) := fun j hj => shown_byte (fun j hj => bytes h hn hi hj) hw hj
  have hlt := hL.lt
  refine ⟨by rw [← hr]; exact hrow.read, by omega, by omega, ?_, fun p hp => ⟨?_, ?_⟩, fun j hj hj' => ?_⟩
  · refine lt_of_bytes (m := 32) (by rw [show (256 : ℕ) ^ 32 = 2 ^ 256 by norm_num]; exact hval) (fun j hj hj' => ?_)
    have := hrow.high l (by omega) j (by omega) hj'
    rw [hL.one, one_mul, hb j hj'] at this
    exact lift_nat (b := 0) (by rw [this, Nat.cast_zero]) (by have := Nat.mod_lt (e.value / 256 ^ j) (show 0 < 256 by decide); unfold P; omega) (by decide)
  · rw [hL.memFilter (by omega), if_pos (by omega)]
  · have hvirt : e.virt + (l : F) + -1 * ((e.len - 1 - p : ℕ) : F) = e.virt + (p : F) := by
      rw [hlen, show l + 1 - 1 - p = l - p by omega, Nat.cast_sub (by omega)]
      ring
    unfold memAccess Packed.access
    rw [hL.sum (fun j => ((j : ℕ) : F)), hr, hc, hg, hv, ht, hb _ (by omega), byteBE, hvirt]
  · rw [hL.memFilter (by omega), if_neg (by omega)]

/-- Every row either shows the CPU a packed sequence or accesses no memory. -/
theorem shows_or {n : ℕ} {T : ℕ → Row F} (h : Accepted n T) (hn : 32 * n < P) {i : ℕ} (hi : i < n) :
    (∃ e, Shows (T i) e) ∨ ∀ j < 32, memFilter (T i) j = 0 := by
  obtain ⟨hrow, -⟩ := sat_iff.1 h.constraints i hi
  rcases hrow.filter with hf | hf
  · exact .inr (fun j hj => hrow.memFilter_zero hf hj)
  · left
    obtain ⟨l, hL⟩ := hrow.lenIs hf
    have hlt := hL.lt
    choose x hx he using fun j (hj : j < 32) => bytes h hn hi hj
    let b : ℕ → ℕ := fun j => if hj : j < 32 then x j hj else 0
    have hb : ∀ j < 32, b j < 256 := fun j hj => by simp only [b, dif_pos hj]; exact hx j hj
    have hbe : ∀ j < 32, T i (BYTE j) = (b j : F) := fun j hj => by simp only [b, dif_pos hj]; exact he j hj
    let v : ℕ := ∑ j ∈ range 32, b j * 256 ^ j
    have hdig : ∀ j < 32, v / 256 ^ j % 256 = b j := fun j hj => (digit_sum (by decide) j 32 b hb hj)
    have hvlt : v < 2 ^ 256 := by
      have : ∀ m ≤ 32, ∑ j ∈ range m, b j * 256 ^ j < 256 ^ m := by
        intro m
        induction m with
        | zero => simp
        | succ m ih =>
          intro hm
          rw [sum_range_succ, pow_succ]
          have h1 := ih (by omega)
          have h2 := hb m (by omega)
          have h3 : b m * 256 ^ m ≤ 255 * 256 ^ m := Nat.mul_le_mul_right _ (by omega)
          omega
      have := this 32 le_rfl
      rwa [show (256 : ℕ) ^ 32 = 2 ^ 256 by norm_num] at this
    refine ⟨⟨T i IS_READ, T i CTX, T i SEG, T i VIRT, T i TS, l + 1, v⟩, hf, rfl, rfl, rfl, rfl, ?_, by show l + 1 < P; unfold P; omega, rfl, hvlt, fun k hk => ?_⟩
    · exact hL.sum (fun i => ((i + 1 : ℕ) : F))
    · exact limb_of_bytes (fun j hj => by rw [hdig j hj, hbe j hj]) hk

/-- Property C87: every packed sequence exported to the CPU has from 1 to 32 bytes, its word fits into them, and each of its bytes is read from or
written to memory, at the address of the sequence plus its position, most significant byte first, at the time of the sequence. -/
theorem C87_exports {n : ℕ} {T : ℕ → Row F} (h : Accepted n T) (hn : 32 * n < P) {e : Packed} (hs : Exports n T e) :
    1 ≤ e.len ∧ e.len ≤ 32 ∧ e.value < 256 ^ e.len ∧ ∀ p < e.len, Accesses n T (e.access p) := by
  obtain ⟨i, hi, hs⟩ := hs
  obtain ⟨-, h1, h2, h3, h4, -⟩ := C87_row h hn hi hs
  exact ⟨h1, h2, h3, fun p hp => ⟨i, hi, e.len - 1 - p, by omega, h4 p hp⟩⟩

/-- Property C87, the converse: the table accesses memory only for the bytes of packed sequences exported to the CPU, and its filters are 0 or 1. -/
theorem C87_accesses {n : ℕ} {T : ℕ → Row F} (h : Accepted n T) (hn : 32 * n < P) {i : ℕ} (hi : i < n) {j : ℕ} (hj : j < 32) (hm : memFilter (T i) j ≠ 0) :
    memFilter (T i) j = 1 ∧ ∃ e, Shows (T i) e ∧ ∃ p < e.len, memAccess (T i) j = e.access p := by
  rcases shows_or h hn hi with ⟨e, he⟩ | h0
  · obtain ⟨-, h1, h2, -, h4, h5⟩ := C87_row h hn hi he
    by_cases hje : j < e.len
    · obtain ⟨h6, h7⟩ := h4 (e.len - 1 - j) (by omega)
      rw [show e.len - 1 - (e.len - 1 - j) = j by omega] at h6 h7
      exact ⟨h6, e, he, e.len - 1 - j, by omega, h7⟩
    · exact absurd (h5 j (by omega) hj) hm
  · exact absurd (h0 j hj) hm

end Verif.Stark.BytePacking
