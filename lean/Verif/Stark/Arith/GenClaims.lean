import Verif.Stark.Arith.GenTable
import Verif.Stark.Counter
import Mathlib.Data.List.GetD

/-! The generated arithmetic table is accepted, and shows every operation once and in order. Property C98. -/

namespace Verif.Stark.Arith

open Finset

theorem HasEntry.congr {lv row : Row F} {e : Entry} (h : HasEntry row e) (ha : Agrees lv row) : HasEntry lv e := by
  have hw : ∀ s v, s + 16 ≤ 114 → Words row s v → Words lv s v := by
    intro s v hs hv
    refine ⟨hv.1, fun k hk => ?_⟩
    rw [← hv.2 k hk]
    unfold ctlWord
    rw [ha _ (by omega), ha _ (by omega)]
  refine ⟨?_, hw _ _ (by decide) h.in0, hw _ _ (by decide) h.in1, hw _ _ (by decide) h.in2, hw _ _ (by decide) h.out⟩
  rw [← h.opcode]
  unfold ctlOpcode
  rw [ha OPCODE_COL (by decide)]
  congr 2
  refine List.map_congr_left (fun p hp => ?_)
  have : ∀ p ∈ combinedOps, p.1 < 114 := by decide
  rw [ha p.1 (this p hp)]

theorem filter_congr {lv row : Row F} (ha : Agrees lv row) : ctlFilter lv = ctlFilter row := by
  rw [sum_flags, sum_flags]
  exact sum_congr rfl (fun f hf => ha f (by have := mem_range.1 hf; simp only [N_FLAGS] at this; omega))

/-- No constraint is for the first row. -/
def NeverFirst (cs : List (Constr F)) : Prop := ∀ c ∈ cs, c.on ≠ .first

theorem NeverFirst.append {a b : List (Constr F)} (ha : NeverFirst a) (hb : NeverFirst b) : NeverFirst (a ++ b) :=
  fun c hc => (List.mem_append.1 hc).elim (ha c) (hb c)

theorem NeverFirst.cons {c : Constr F} {b : List (Constr F)} (ha : c.on ≠ .first) (hb : NeverFirst b) : NeverFirst (c :: b) :=
  fun x hx => (List.mem_cons.1 hx).elim (fun e => e ▸ ha) (hb x)

theorem NeverFirst.nil : NeverFirst [] := fun _ h => absurd h (by simp)

theorem NeverFirst.map {α : Type} {l : List α} {on : When} {f : α → F} (h : on ≠ .first) : NeverFirst (l.map (fun i => ⟨on, f i⟩)) := by
  intro c hc
  obtain ⟨i, _, rfl⟩ := List.mem_map.1 hc
  exact h

theorem never_addcy {f : F} {x y z g : Limbs F} {b : Bool} : NeverFirst (evalAddcy f x y z g b) := by
  have hon : (if b then When.transition else When.always) ≠ .first := by cases b <;> decide
  unfold evalAddcy
  refine (((NeverFirst.map hon).append ?_).append (.cons hon .nil)).append (.map hon)
  cases b
  · exact .cons hon .nil
  · exact .nil

theorem never_reduced {lv nv : Row F} {f : F} {o m : Limbs F} {z : F} : NeverFirst (checkReduced lv nv f o m z) := by
  unfold checkReduced
  exact never_addcy (b := true)

theorem never_poly {lv nv : Row F} {f : F} {o m q : Limbs F} : NeverFirst (modularConstrPoly lv nv f o m q).1 := by
  unfold modularConstrPoly
  exact ((NeverFirst.cons (by intro h; cases h) (.cons (by intro h; cases h) (.cons (by intro h; cases h) .nil))).append never_reduced).append (.map (by intro h; cases h))

theorem never_divmod {lv nv : Row F} {f : F} {a b c d : ℕ} : NeverFirst (evalDivmodHelper lv nv f a b c d) :=
  ((NeverFirst.cons (by intro h; cases h) .nil).append never_poly).append (.map (by intro h; cases h))

theorem never_modular {lv nv : Row F} : NeverFirst (evalModular lv nv) := by
  unfold evalModular
  refine ((((((NeverFirst.cons (by intro h; cases h) .nil).append (.map (by intro h; cases h))).append ?_).append never_poly).append (.map (by intro h; cases h))).append
    (.map (by intro h; cases h))).append (.map (by intro h; cases h))
  unfold submodConstrPoly
  exact (NeverFirst.cons (by intro h; cases h) (.map (by intro h; cases h))).append never_poly

theorem never_byte {lv : Row F} : NeverFirst (evalByte lv) := by
  unfold evalByte
  exact ((((((NeverFirst.map (by intro h; cases h)).append (.cons (by intro h; cases h) .nil)).append (.map (by intro h; cases h))).append (.map (by intro h; cases h))).append (.map (by intro h; cases h))).append
    (.cons (by intro h; cases h) (.cons (by intro h; cases h) (.cons (by intro h; cases h) (.cons (by intro h; cases h) (.cons (by intro h; cases h) (.cons (by intro h; cases h) (.cons (by intro h; cases h) .nil)))))))).append
    (.map (by intro h; cases h))

theorem not_first {lv nv : Row F} : NeverFirst (evalOps lv nv) := by
  have h1 : NeverFirst (evalAddSubLtGt lv) := ((never_addcy.append never_addcy).append never_addcy).append never_addcy
  have h2 : NeverFirst (evalMul lv) := NeverFirst.map (by intro h; cases h)
  have h3 : NeverFirst (evalDivmod lv nv) := never_divmod.append never_divmod
  have h4 : NeverFirst (evalShift lv nv) := NeverFirst.append (NeverFirst.map (by intro h; cases h)) never_divmod
  exact ((((h2.append h1).append h3).append never_modular).append never_byte).append h4

/-- The shared columns of an entry of a good list. -/
theorem good_at {rows : List (Row F)} (h : Good rows) {i : ℕ} (hi : i < rows.length) :
    Sane (padRow rows i) ∧ ((∀ lv, Agrees lv (padRow rows i) → ∀ nv, AllZero (evalOps lv nv)) ∨
      (i + 1 < rows.length ∧ ∀ lv nv, Agrees lv (padRow rows i) → Agrees nv (padRow rows (i + 1)) → Holds (evalOps lv nv))) := by
  induction rows generalizing i with
  | nil => exact absurd hi (by simp)
  | cons r rest ih =>
    obtain ⟨h1, h2, h3⟩ := h
    cases i with
    | zero =>
      refine ⟨h1, h2.imp_right ?_⟩
      rintro ⟨r', rest', rfl, h⟩
      exact ⟨by simp, h⟩
    | succ i =>
      obtain ⟨g1, g2⟩ := ih h3 (by simpa using hi)
      exact ⟨g1, g2.imp_right (fun h => ⟨by simpa using h.1, h.2⟩)⟩

theorem padRow_ge {rows : List (Row F)} {i : ℕ} (hi : rows.length ≤ i) : padRow rows i = fun _ => 0 := by
  unfold padRow
  rw [List.getD_eq_default _ _ hi]

theorem genTable_agrees (n : ℕ) (rows : List (Row F)) (i : ℕ) : Agrees (genTable n rows i) (padRow rows i) := by
  intro c hc
  unfold genTable
  rw [if_neg (by simp only [RANGE_COUNTER]; omega), if_neg (by simp only [RC_FREQUENCIES]; omega)]

theorem genTable_counter (n : ℕ) (rows : List (Row F)) (i : ℕ) : genTable n rows i RANGE_COUNTER = ((if i < 65536 then i else 65535 : ℕ) : F) := by
  unfold genTable; rw [if_pos rfl]

theorem genTable_freq (n : ℕ) (rows : List (Row F)) (i : ℕ) :
    genTable n rows i RC_FREQUENCIES = if i < 65536 then (occurrences n (rangeLooking (padRow rows)) i : F) else 0 := by
  unfold genTable; rw [if_neg (by decide), if_pos rfl]

theorem pad_ranged {rows : List (Row F)} (h : Good rows) (i : ℕ) : Ranged (padRow rows i) := by
  rcases Nat.lt_or_ge i rows.length with hi | hi
  · exact (good_at h hi).1.ranged
  · intro c _ _
    rw [padRow_ge hi]
    exact (by decide : ((0 : F)).val < base)

theorem genTable_constraints {rows : List (Row F)} (h : Good rows) {n : ℕ} (hn : rows.length ≤ n) (hn' : 65536 ≤ n) :
    Satisfies evalArith n (genTable n rows) := by
  intro i hi c hc ha
  rw [evalArith_eq, List.append_assoc, List.mem_append, List.mem_append] at hc
  have hag := genTable_agrees n rows i
  rcases hc with hc | hc | hc
  · rcases Nat.lt_or_ge i rows.length with hlt | hge
    · exact (good_at h hlt).1.flags _ hag c hc
    · rw [padRow_ge hge] at hag
      exact flags_zero (fun g hg => hag g (by simp only [N_FLAGS] at hg; omega)) (hag _ (by decide)) c hc
  · simp only [evalCounter, genTable_counter, List.mem_cons, List.not_mem_nil, or_false] at hc
    rcases hc with rfl | rfl | rfl
    · simp only [When.applies] at ha; subst ha; simp
    · simp only [When.applies] at ha
      rw [Nat.mod_eq_of_lt (by omega)]
      rcases Nat.lt_or_ge (i + 1) 65536 with h1 | h1
      · rw [if_pos h1, if_pos (by omega)]
        push_cast; ring
      · rw [if_neg (by omega)]
        split
        · rw [show i = 65535 by omega]; ring
        · ring
    · simp only [When.applies] at ha
      split
      · rw [show i = 65535 by omega]; push_cast; ring
      · push_cast; ring
  · rcases Nat.lt_or_ge i rows.length with hlt | hge
    · rcases (good_at h hlt).2 with h1 | ⟨hl, h1⟩
      · exact h1 _ hag _ c hc
      · rw [Nat.mod_eq_of_lt (by omega)] at hc
        refine h1 _ _ hag (genTable_agrees n rows (i + 1)) c hc ?_
        have := not_first c hc
        rcases hon : c.on
        · exact .inl rfl
        · exact .inr rfl
        · exact absurd hon this
        · rw [hon] at ha
          simp only [When.applies] at ha
          omega
    · rw [padRow_ge hge] at hag
      exact ops_zero (fun g hg => hag g (by simp only [N_FLAGS] at hg; omega)) c hc

theorem looking_eq (n : ℕ) (rows : List (Row F)) : rangeLooking (genTable n rows) = rangeLooking (padRow rows) := by
  unfold rangeLooking
  refine List.map_congr_left (fun c hc => ?_)
  have hc := List.mem_range.1 hc
  congr 1
  funext i
  exact genTable_agrees n rows i _ (by simp only [NUM_SHARED_COLS, START_SHARED_COLS] at *; omega)

theorem genTable_lookup {rows : List (Row F)} (h : Good rows) {n : ℕ} (hn' : 65536 ≤ n) :
    LogUp n (rangeLooking (genTable n rows)) (fun i => genTable n rows i RANGE_COUNTER) (fun i => genTable n rows i RC_FREQUENCIES) := by
  simp only [genTable_counter, genTable_freq, looking_eq]
  refine logUp_counter hn' (by decide) ?_ ?_
  · intro l hl i _
    obtain ⟨c, _, rfl⟩ := List.mem_map.1 hl
    rfl
  · intro l hl i _
    obtain ⟨c, hc, rfl⟩ := List.mem_map.1 hl
    have hc := List.mem_range.1 hc
    exact ⟨_, pad_ranged h i _ (by omega) (by omega), (ZMod.natCast_zmod_val _).symm⟩

theorem genTable_accepted {rows : List (Row F)} (h : Good rows) {n : ℕ} (hn : rows.length ≤ n) (hn' : 65536 ≤ n) : Accepted n (genTable n rows) := by
  refine ⟨genTable_constraints h hn hn', fun i hi c h1 h2 => ?_⟩
  have hv := pad_ranged h i c h1 h2
  rw [base] at hv
  refine ⟨(padRow rows i c).val, by omega, ?_⟩
  rw [genTable_counter, if_pos hv, ZMod.natCast_zmod_val, genTable_agrees n rows i c (by simp only [NUM_SHARED_COLS, START_SHARED_COLS] at *; omega)]

/-! ### Where the operations are -/

/-- The operations are shown in order, each once, at the listed rows, and no other row is shared. (Specification.) -/
structure ShownAt (es : List Entry) (n : ℕ) (T : ℕ → Row F) (pos : List ℕ) : Prop where
  increasing : pos.Pairwise (· < ·)
  entries : List.Forall₂ (fun e i => i < n ∧ HasEntry (T i) e) es pos
  filter : ∀ i, ctlFilter (T i) = if i ∈ pos then 1 else 0

theorem shown_append {e : Entry} {es : List Entry} {block rest : List (Row F)} (hb : Block e block) {pos : List ℕ}
    (h : ShownAt es rest.length (padRow rest) pos) : ShownAt (e :: es) (block ++ rest).length (padRow (block ++ rest)) (0 :: pos.map (· + block.length)) := by
  obtain ⟨r, tail, rfl, hf, he, hr⟩ := hb.cons
  have hlo : ∀ i < (r :: tail).length, padRow (r :: tail ++ rest) i = padRow (r :: tail) i := by
    intro i hi
    unfold padRow
    rw [List.getD_append _ _ _ _ hi]
  have hhi : ∀ i, padRow (r :: tail ++ rest) (i + (r :: tail).length) = padRow rest i := by
    intro i
    unfold padRow
    rw [List.getD_append_right _ _ _ _ (by omega), Nat.add_sub_cancel]
  refine ⟨?_, ?_, ?_⟩
  · refine List.pairwise_cons.2 ⟨fun x hx => ?_, ?_⟩
    · obtain ⟨y, _, rfl⟩ := List.mem_map.1 hx
      rw [List.length_cons]; omega
    · rw [List.pairwise_map]
      exact h.increasing.imp (fun hab => by omega)
  · refine .cons ⟨by simp, he⟩ ?_
    rw [List.forall₂_map_right_iff]
    refine h.entries.imp (fun e i hi => ⟨by rw [List.length_append]; omega, ?_⟩)
    rw [hhi]
    exact hi.2
  · intro i
    rcases Nat.lt_or_ge i (r :: tail).length with hi | hi
    · rw [hlo i hi]
      cases i with
      | zero => rw [if_pos (by simp)]; exact hf
      | succ i =>
        rw [if_neg]
        · have hi' : i < tail.length := by simpa using hi
          have : padRow (r :: tail) (i + 1) = tail[i] := by
            unfold padRow
            rw [List.getD_cons_succ, List.getD_eq_getElem _ _ hi']
          rw [this]
          exact hr _ (List.getElem_mem hi')
        · rw [List.mem_cons, List.mem_map]
          rintro (h0 | ⟨y, _, hy⟩)
          · omega
          · omega
    · obtain ⟨j, rfl⟩ := Nat.exists_eq_add_of_le' hi
      rw [hhi, h.filter]
      refine if_congr ?_ rfl rfl
      rw [List.mem_cons, List.mem_map]
      constructor
      · exact fun hj => .inr ⟨j, hj, rfl⟩
      · rintro (h0 | ⟨y, hy, he⟩)
        · rw [List.length_cons] at h0; omega
        · rwa [show j = y by omega]

theorem opRows_good {ops : List Operation} (h : ∀ op ∈ ops, op.Honest) :
    ∃ rows, opRows ops = some rows ∧ rows.length = (ops.map Operation.height).sum ∧ Good rows ∧ ∃ pos, ShownAt (ops.map Operation.entry) rows.length (padRow rows) pos := by
  induction ops with
  | nil =>
    refine ⟨[], rfl, rfl, trivial, [], List.Pairwise.nil, .nil, fun i => ?_⟩
    rw [padRow_ge (by simp), if_neg (by simp)]
    exact filter_none (fun _ _ => rfl)
  | cons op ops ih =>
    obtain ⟨rs, h1, hl, h2, pos, h3⟩ := ih (fun o ho => h o (List.mem_cons_of_mem _ ho))
    obtain ⟨b, g1, gl, g2⟩ := op_block (h op List.mem_cons_self)
    refine ⟨b ++ rs, by unfold opRows; rw [g1, h1]; rfl,
      by rw [List.length_append, gl, hl, List.map_cons, List.sum_cons], g2.good _ h2, _, shown_append g2 h3⟩

/-! ### The claims -/

/-- C98: the table generated from any list of operations with results as computed by their constructors exists, is accepted with the
frequencies it contains, and shows exactly the operations, in order. -/
theorem C98_generation (ops : List Operation) (h : ∀ op ∈ ops, op.Honest) :
    ∃ n T, generateTrace ops = some (n, T) ∧ n = max (Logic.nextPow (ops.map Operation.height).sum) 65536 ∧ Accepted n T ∧
      LogUp n (rangeLooking T) (fun i => T i RANGE_COUNTER) (fun i => T i RC_FREQUENCIES) ∧
      ∃ pos, ShownAt (ops.map Operation.entry) n T pos := by
  obtain ⟨rows, h1, hl, h2, pos, h3⟩ := opRows_good h
  have hn : rows.length ≤ genHeight rows.length := le_trans (Nat.le_pow_clog (by decide) _) (le_max_left _ _)
  have hn' : 65536 ≤ genHeight rows.length := le_max_right _ _
  have hc : cellsInRange rows = true := by
    unfold cellsInRange
    rw [List.all_eq_true]
    intro r hr
    obtain ⟨i, hi, rfl⟩ := List.mem_iff_getElem.1 hr
    rw [List.all_eq_true]
    intro c hc
    have hc := List.mem_range.1 hc
    have := pad_ranged h2 i (START_SHARED_COLS + c) (by omega) (by omega)
    unfold padRow at this
    rw [List.getD_eq_getElem _ _ hi] at this
    exact decide_eq_true this
  refine ⟨_, _, ?_, by rw [← hl]; rfl, genTable_accepted h2 hn hn', genTable_lookup h2 hn', pos, h3.increasing, ?_, fun i => ?_⟩
  · unfold generateTrace
    rw [h1]
    exact if_pos hc
  · exact h3.entries.imp (fun e i hi => ⟨by omega, hi.2.congr (genTable_agrees _ _ _)⟩)
  · rw [filter_congr (genTable_agrees _ _ _)]
    exact h3.filter i

/-- C98: the result computed for a binary operation is the one of the EVM. -/
theorem C98_binary (op : BinaryOp) (a b : ℕ) : OpSpec op.opcode a b (op.third a) (op.result a b) := by
  have hb' : bnBase = bn254Base := bnBase_eq
  have h0 : bnBase ≠ 0 := by rw [bnBase_eq]; decide
  cases op
  · exact rfl
  · exact rfl
  · exact rfl
  · exact rfl
  · exact rfl
  · exact rfl
  · exact rfl
  · show addmod a b bnBase = (a + b) % bn254Base
    rw [← hb', addmod, if_neg h0]
  · show mulmod a b bnBase = a * b % bn254Base
    rw [← hb', mulmod, if_neg h0]
  · show (submod a b bnBase : ℤ) = ((a : ℤ) - b) % (bn254Base : ℤ)
    rw [← hb', submod_eq, if_neg h0]
  · show (if a ≥ 32 then 0 else b / 256 ^ (31 - a) % 256) = if a < 32 then b / 256 ^ (31 - a) % 256 else 0
    split <;> split <;> first | rfl | omega
  · exact fun _ => rfl
  · exact fun _ => rfl

/-- C98: the result computed for a ternary operation is the one of the EVM. -/
theorem C98_ternary (op : TernaryOp) (a b c : ℕ) : OpSpec op.opcode a b c (op.result a b c) := by
  cases op
  · show addmod a b c = if c = 0 then 0 else (a + b) % c
    rw [addmod]; split
    · assumption
    · rfl
  · show mulmod a b c = if c = 0 then 0 else a * b % c
    rw [mulmod]; split
    · assumption
    · rfl
  · exact submod_eq a b c

theorem Operation.Honest.opcode_lt {op : Operation} (h : op.Honest) : op.entry.opcode < 256 := by
  cases op with
  | binary op => show op.opcode < 256; cases op <;> decide
  | ternary op => show op.opcode < 256; cases op <;> decide
  | rangeCheck a b c o r => exact h.2.2.2.2

/-- C98: the CPU table finds in the generated table exactly the entries of the operations. -/
theorem C98_exports (ops : List Operation) (h : ∀ op ∈ ops, op.Honest) {n : ℕ} {T : ℕ → Row F} (hg : generateTrace ops = some (n, T)) (o a b c out : ℕ) :
    Exports n T o a b c out ↔ ∃ op ∈ ops, op.entry = ⟨o, a, b, c, out⟩ := by
  obtain ⟨n', T', h1, -, h2, -, pos, h3⟩ := C98_generation ops h
  rw [hg, Option.some.injEq, Prod.mk.injEq] at h1
  obtain ⟨rfl, rfl⟩ := h1
  have hP : (256 : ℕ) < P := by decide
  constructor
  · rintro ⟨i, hi, hf, ho, hlt, w0, w1, w2, w3⟩
    rw [h3.filter] at hf
    have hmem : i ∈ pos := by
      by_contra hno
      rw [if_neg hno] at hf
      exact zero_ne_one hf
    obtain ⟨k, hk, rfl⟩ := List.mem_iff_getElem.1 hmem
    have hlen := h3.entries.length_eq
    have hkl : k < ops.length := by rw [List.length_map] at hlen; omega
    have he := (h3.entries.get (by omega) hk).2
    simp only [List.get_eq_getElem, List.getElem_map] at he
    have hr : Ranged (T pos[k]) := by
      intro c hc1 hc2
      obtain ⟨rows, g1, -, g2, -⟩ := opRows_good h
      have hT : T = genTable n rows := by
        unfold generateTrace at hg
        rw [g1] at hg
        simp only [Option.bind_eq_bind, Option.bind_some] at hg
        split at hg
        · rw [Option.some.injEq, Prod.mk.injEq] at hg
          rw [← hg.2, ← hg.1]
        · exact absurd hg (by simp)
      rw [hT, genTable_agrees n rows _ c (by simp only [NUM_SHARED_COLS, START_SHARED_COLS] at *; omega)]
      exact pad_ranged g2 _ c hc1 hc2
    have hw : ∀ {s x y : ℕ}, InShared s → Words (T pos[k]) s x → Words (T pos[k]) s y → x = y := fun hs hx hy =>
      (words_num hr hs hx).symm.trans (words_num hr hs hy)
    refine ⟨ops[k], List.getElem_mem hkl, ?_⟩
    have h256 := (h _ (List.getElem_mem hkl)).opcode_lt
    have e0 : ops[k].entry.opcode = o := lift_nat (he.opcode.symm.trans ho) (by omega) (by omega)
    have e1 := hw ⟨by decide, by decide⟩ he.in0 w0
    have e2 := hw ⟨by decide, by decide⟩ he.in1 w1
    have e3 := hw ⟨by decide, by decide⟩ he.in2 w2
    have e4 := hw ⟨by decide, by decide⟩ he.out w3
    rw [← e0, ← e1, ← e2, ← e3, ← e4]
  · rintro ⟨op, hop, he⟩
    obtain ⟨k, hk, rfl⟩ := List.mem_iff_getElem.1 hop
    have hlen := h3.entries.length_eq
    have hkl : k < pos.length := by rw [List.length_map] at hlen; omega
    obtain ⟨hi, hs⟩ := h3.entries.get (by rw [List.length_map]; exact hk) hkl
    simp only [List.get_eq_getElem, List.getElem_map] at hi hs
    have h256 := (h _ (List.getElem_mem hk)).opcode_lt
    rw [he] at hs h256
    refine ⟨pos[k], hi, ?_, hs.opcode, h256, hs.in0, hs.in1, hs.in2, hs.out⟩
    rw [h3.filter, if_pos (List.getElem_mem hkl)]

/-! ### Examples -/

/-- One operation of each kind, with operands at the edges. -/
def exampleOps : List Operation :=
  [.mkBinary .add (2 ^ 256 - 1) 5, .mkBinary .sub 3 7, .mkBinary .mul (2 ^ 255) 3, .mkBinary .lt 1 2, .mkBinary .gt 1 2, .mkBinary .div 100 0,
   .mkBinary .div 100 7, .mkBinary .mod 100 0, .mkBinary .shl 255 3, .mkBinary .shl 256 3, .mkBinary .shr 300 5, .mkBinary .shr 3 (2 ^ 256 - 1),
   .mkBinary .byte 31 0x1234, .mkBinary .byte (2 ^ 128) 7, .mkBinary .addFp254 (2 ^ 256 - 1) (2 ^ 256 - 1), .mkBinary .subFp254 0 (2 ^ 256 - 1),
   .mkBinary .mulFp254 (2 ^ 256 - 1) (2 ^ 256 - 1), .mkTernary .addMod 8 9 0, .mkTernary .subMod 8 9 5, .mkTernary .mulMod (2 ^ 256 - 1) (2 ^ 256 - 1) 12345,
   .rangeCheck 1 2 3 0x20 (2 ^ 256 - 1)]

theorem exampleOps_honest : ∀ op ∈ exampleOps, op.Honest := by
  intro op hop
  unfold exampleOps at hop
  simp only [List.mem_cons, List.not_mem_nil, or_false, Operation.mkBinary, Operation.mkTernary] at hop
  rcases hop with rfl | rfl | rfl | rfl | rfl | rfl | rfl | rfl | rfl | rfl | rfl | rfl | rfl | rfl | rfl | rfl | rfl | rfl | rfl | rfl | rfl <;>
    unfold Operation.Honest <;> first | exact ⟨by decide, by decide, rfl⟩ | exact ⟨by decide, by decide, by decide, rfl⟩ |
      exact ⟨by decide, by decide, by decide, by decide, by decide⟩

/-- The hypotheses are met, and the table holds the wrapped sum and the quotient by zero. -/
example : ∃ n T, generateTrace exampleOps = some (n, T) ∧ n = 65536 ∧ Accepted n T ∧
    Exports n T 0x01 (2 ^ 256 - 1) 5 0 4 ∧ Exports n T 0x04 100 0 0 0 ∧ Exports n T 0x03 3 7 0 (2 ^ 256 - 4) ∧ ¬ Exports n T 0x01 1 2 0 4 := by
  obtain ⟨n, T, h1, h2, h3, -⟩ := C98_generation exampleOps exampleOps_honest
  have hE := C98_exports exampleOps exampleOps_honest h1
  have hn : n = 65536 := by
    rw [h2]
    have : (exampleOps.map Operation.height).sum = 32 := by decide
    rw [this, Logic.nextPow]
    exact max_eq_right (le_trans (Nat.pow_le_pow_right (by decide) (Nat.clog_le_of_le_pow (y := 16) (by decide))) (by decide))
  refine ⟨n, T, h1, hn, h3, (hE ..).2 ⟨_, List.mem_cons_self, ?_⟩, (hE ..).2 ⟨.mkBinary .div 100 0, by simp [exampleOps], ?_⟩,
    (hE ..).2 ⟨.mkBinary .sub 3 7, by simp [exampleOps], ?_⟩, fun h => ?_⟩
  · decide
  · decide
  · decide
  · obtain ⟨op, hop, he⟩ := (hE ..).1 h
    unfold exampleOps at hop
    simp only [List.mem_cons, List.not_mem_nil, or_false] at hop
    rcases hop with rfl | rfl | rfl | rfl | rfl | rfl | rfl | rfl | rfl | rfl | rfl | rfl | rfl | rfl | rfl | rfl | rfl | rfl | rfl | rfl | rfl <;>
      first | exact absurd (congrArg Entry.opcode he) (by decide) | exact absurd (congrArg Entry.in0 he) (by decide)

end Verif.Stark.Arith
