import Verif.Stark.Cpu.Sim

/-! C95, the part that holds: every instruction does to the stack and to memory what the specification says. -/

namespace Verif.Stark.Cpu

variable {L : Labels} {lv nv : Row F} {M M' : Mem} {S : List ℕ} {o : ℕ}

/-- What C95 asserts of one instruction. -/
def Outcome (o : ℕ) (lv nv : Row F) (M M' : Mem) (S : List ℕ) : Prop :=
  ∃ S', StackSpec o (lv PC).val (lv CONTEXT).val M S S' ∧ OnStack M' nv S' ∧ MemSpec o (lv CONTEXT) S M M'

theorem Frame.spec (h : Frame (lv CONTEXT) M M') (ho : o ≠ 0xfc) : MemSpec o (lv CONTEXT) S M M' := by
  intro x hx
  rw [if_neg (fun e => ho e.1)]
  exact h x hx

theorem two_of {S : List ℕ} (h : 2 ≤ S.length) : ∃ a b R, S = a :: b :: R := by
  match S, h with
  | a :: b :: R, _ => exact ⟨a, b, R, rfl⟩

theorem three_of {S : List ℕ} (h : 3 ≤ S.length) : ∃ a b c R, S = a :: b :: c :: R := by
  match S, h with
  | a :: b :: c :: R, _ => exact ⟨a, b, c, R, rfl⟩

theorem one_of {S : List ℕ} (h : 1 ≤ S.length) : ∃ a R, S = a :: R := by
  match S, h with
  | a :: R, _ => exact ⟨a, R, rfl⟩

/-! ### Shapes -/

theorem binary_on (h : OnStack M lv S) (hM : ∀ x, M x < 2 ^ 256) (h2 : 2 ≤ S.length) (hr : Runs M [rdStack lv (lv STACK_LEN - 2) (value lv 1)] M')
    (hl : nv STACK_LEN + ((2 : ℕ) : F) = lv STACK_LEN + ((1 : ℕ) : F)) (hc : nv CONTEXT = lv CONTEXT) :
    ∃ a b R, S = a :: b :: R ∧ Holds lv 0 a ∧ Holds lv 1 b ∧ M' = M ∧ ∀ out, Holds nv 0 out → OnStack M' nv (out :: R) := by
  obtain ⟨a, b, R, rfl⟩ := two_of h2
  obtain ⟨hb, hr⟩ := second_on h hM rfl hr
  rw [runs_nil.1 hr]
  refine ⟨a, b, R, rfl, h.top a rfl, hb, rfl, fun out ho => replace_on h (a := a) (A := [b]) rfl ?_ hc ho⟩
  push_cast at hl
  simp only [List.length_cons, List.length_nil]
  push_cast
  linear_combination hl

theorem ternary_on (h : OnStack M lv S) (hM : ∀ x, M x < 2 ^ 256) (h2 : 3 ≤ S.length)
    (hr : Runs M [rdStack lv (lv STACK_LEN - 2) (value lv 1), rdStack lv (lv STACK_LEN - 3) (value lv 2)] M')
    (hl : nv STACK_LEN + ((3 : ℕ) : F) = lv STACK_LEN + ((1 : ℕ) : F)) (hc : nv CONTEXT = lv CONTEXT) :
    ∃ a b d R, S = a :: b :: d :: R ∧ Holds lv 0 a ∧ Holds lv 1 b ∧ Holds lv 2 d ∧ M' = M ∧ ∀ out, Holds nv 0 out → OnStack M' nv (out :: R) := by
  obtain ⟨a, b, d, R, rfl⟩ := three_of h2
  obtain ⟨hb, hr⟩ := second_on h hM rfl hr
  obtain ⟨hd, hr⟩ := third_on h hM rfl hr
  rw [runs_nil.1 hr]
  refine ⟨a, b, d, R, rfl, h.top a rfl, hb, hd, rfl, fun out ho => replace_on h (a := a) (A := [b, d]) rfl ?_ hc ho⟩
  push_cast at hl
  simp only [List.length_cons, List.length_nil]
  push_cast
  linear_combination hl

theorem unary_on (h : OnStack M lv S) (h1 : 1 ≤ S.length) (hl : nv STACK_LEN + ((1 : ℕ) : F) = lv STACK_LEN + ((1 : ℕ) : F)) (hc : nv CONTEXT = lv CONTEXT) :
    ∃ a R, S = a :: R ∧ Holds lv 0 a ∧ ∀ out, Holds nv 0 out → OnStack M nv (out :: R) := by
  obtain ⟨a, R, rfl⟩ := one_of h1
  refine ⟨a, R, rfl, h.top a rfl, fun out ho => replace_on h (a := a) (A := []) rfl ?_ hc ho⟩
  push_cast at hl
  simp only [List.length_nil]
  push_cast
  linear_combination hl

theorem runs_jumpdest {d : ℕ} {ms : List MemOp} (h : Runs M (jumpdestRead lv d ++ ms) M') : Runs M ms M' := by
  unfold jumpdestRead at h
  split at h
  · exact h
  · exact (runs_read.1 h).2

theorem dup_on (h : OnStack M lv S) (hM : ∀ x, M x < 2 ^ 256) (hP : S.length + 1 < P) {k : ℕ} (hk : k < S.length)
    (hr : Runs M [wrStack lv (lv STACK_LEN - 1) (value lv 0), rdStack lv (lv STACK_LEN - 1 - (k : F)) (value nv 0)] M')
    (hl : nv STACK_LEN + ((0 : ℕ) : F) = lv STACK_LEN + ((1 : ℕ) : F)) (hc : nv CONTEXT = lv CONTEXT) :
    ∃ A a B, A.length = k ∧ S = A ++ a :: B ∧ OnStack M' nv (a :: S) ∧ Frame (lv CONTEXT) M M' := by
  obtain ⟨A, a, B, hA, hS⟩ : ∃ A a B, A.length = k ∧ S = A ++ a :: B :=
    ⟨S.take k, S[k], S.drop (k + 1), by rw [List.length_take]; omega, by simp⟩
  obtain ⟨t, R, ht⟩ := one_of (S := S) (by omega)
  have hh := h.top t (by rw [ht]; rfl)
  rw [hh.value] at hr
  have hr := runs_write_word hh.1 hr
  have hp : lv STACK_LEN - 1 = (R.length : F) := by rw [h.len, ht]; push_cast [List.length_cons]; ring
  rw [hp] at hr
  have hlenR : S.length = R.length + 1 := by rw [ht]; rfl
  have hb : Below (Function.update M (lv CONTEXT, SEG_STACK, (R.length : F)) t) (lv CONTEXT) S := by
    rw [ht]
    refine ⟨by simp, Below.update (le_refl _) (by omega) ?_⟩
    have := h.below
    rw [ht] at this
    exact this
  obtain ⟨hv, hr⟩ := runs_read.1 hr
  have hq : (R.length : F) - (k : F) = (B.length : F) := by
    have : R.length = k + B.length := by
      have := congrArg List.length hS
      rw [List.length_append, List.length_cons] at this
      omega
    rw [this]
    push_cast
    ring
  have hget : Function.update M (lv CONTEXT, SEG_STACK, (R.length : F)) t (lv CONTEXT, SEG_STACK, (B.length : F)) = a := by
    rw [hS] at hb
    exact hb.get.1
  rw [hq, hget] at hv
  have hM1 : ∀ x, Function.update M (lv CONTEXT, SEG_STACK, (R.length : F)) t x < 2 ^ 256 := by
    intro x
    rw [Function.update_apply]
    split
    · exact hh.1
    · exact hM x
  rw [runs_nil.1 hr]
  refine ⟨A, a, B, hA, hS, ⟨?_, ?_, ?_⟩, Frame.update⟩
  · push_cast at hl
    rw [List.length_cons, Nat.cast_add, Nat.cast_one]
    linear_combination hl + h.len
  · intro b hb'
    simp only [List.head?_cons, Option.some.injEq] at hb'
    rw [← hb']
    exact holds_value (hget ▸ hM1 _) hv
  · rw [hc]
    exact hb

theorem swap_on (h : OnStack M lv S) (hM : ∀ x, M x < 2 ^ 256) (hP : S.length + 1 < P) {k : ℕ} (hk : k + 1 < S.length)
    (hr : Runs M [rdStack lv (lv STACK_LEN - 2 - (k : F)) (value nv 0), wrStack lv (lv STACK_LEN - 2 - (k : F)) (value lv 0)] M')
    (hl : nv STACK_LEN + ((0 : ℕ) : F) = lv STACK_LEN + ((0 : ℕ) : F)) (hc : nv CONTEXT = lv CONTEXT) :
    ∃ a A b B, A.length = k ∧ S = a :: A ++ b :: B ∧ OnStack M' nv (b :: A ++ a :: B) ∧ Frame (lv CONTEXT) M M' := by
  obtain ⟨a, R, rfl⟩ := one_of (S := S) (by omega)
  rw [List.length_cons] at hk hP
  obtain ⟨A, b, B, hA, hS⟩ : ∃ A b B, A.length = k ∧ R = A ++ b :: B :=
    ⟨R.take k, R[k], R.drop (k + 1), by rw [List.length_take]; omega, by simp⟩
  have hh := h.top a rfl
  have hb := h.below
  rw [List.tail_cons, hS] at hb
  have hlenR : R.length = k + B.length + 1 := by rw [hS, List.length_append, List.length_cons]; omega
  have hq : lv STACK_LEN - 2 - (k : F) = (B.length : F) := by
    rw [h.len, List.length_cons, hlenR]
    push_cast
    ring
  rw [hq] at hr
  obtain ⟨hv, hr⟩ := runs_read.1 hr
  rw [hb.get.1] at hv
  rw [hh.value] at hr
  have hr := runs_nil.1 (runs_write_word hh.1 hr)
  rw [hr]
  refine ⟨a, A, b, B, hA, by rw [hS]; rfl, ⟨?_, ?_, ?_⟩, Frame.update⟩
  · have e : (b :: A ++ a :: B).length = (a :: R).length := by rw [hS]; simp
    rw [e]
    push_cast at hl
    linear_combination hl + h.len
  · intro c hc'
    simp only [List.cons_append, List.head?_cons, Option.some.injEq] at hc'
    rw [← hc']
    exact holds_value (hb.get.1 ▸ hM _) hv
  · rw [hc]
    exact Below.set a (by rw [← hS]; omega) hb

theorem Holds.addr {r : Row F} {c a : ℕ} (h : Holds r c a) : (r (VALUE c 2), r (VALUE c 1), r (VALUE c 0)) = addrOf a := by
  unfold addrOf
  rw [h.2 2 (by decide), h.2 1 (by decide), h.2 0 (by decide)]
  simp

theorem load_on (h : OnStack M lv S) (hM : ∀ x, M x < 2 ^ 256) (h1 : 1 ≤ S.length)
    (hr : Runs M [⟨1, lv (VALUE 0 2), lv (VALUE 0 1), lv (VALUE 0 0), value nv 0⟩] M')
    (hl : nv STACK_LEN + ((1 : ℕ) : F) = lv STACK_LEN + ((1 : ℕ) : F)) (hc : nv CONTEXT = lv CONTEXT) :
    ∃ a R, S = a :: R ∧ OnStack M' nv (M (addrOf a) :: R) ∧ M' = M := by
  obtain ⟨a, R, hS, ha, ho⟩ := unary_on h h1 hl hc
  obtain ⟨hv, hr⟩ := runs_read.1 hr
  rw [ha.addr] at hv
  rw [runs_nil.1 hr]
  exact ⟨a, R, hS, ho _ (holds_value (hM _) hv), rfl⟩

theorem store_on (h : OnStack M lv S) (hM : ∀ x, M x < 2 ^ 256) (h2 : 2 ≤ S.length) (hP : S.length + 1 < P)
    (hst : ∀ a, S.tail.head? = some a → ¬ ((addrOf a).1 = lv CONTEXT ∧ (addrOf a).2.1 = SEG_STACK))
    (hr : Runs M ([rdStack lv (lv STACK_LEN - 2) (value lv 1), ⟨0, lv (VALUE 1 2), lv (VALUE 1 1), lv (VALUE 1 0), value lv 0⟩] ++ newTop lv nv 2) M')
    (hl : nv STACK_LEN = lv STACK_LEN - 2) (hc : nv CONTEXT = lv CONTEXT) :
    ∃ v a R, S = v :: a :: R ∧ OnStack M' nv R ∧ M' = Function.update M (addrOf a) v := by
  obtain ⟨v, a, R, rfl⟩ := two_of h2
  have hr : Runs M (rdStack lv (lv STACK_LEN - 2) (value lv 1) :: ⟨0, lv (VALUE 1 2), lv (VALUE 1 1), lv (VALUE 1 0), value lv 0⟩ :: newTop lv nv 2) M' := hr
  obtain ⟨ha, hr⟩ := second_on h hM rfl hr
  have hh := h.top v rfl
  rw [hh.value] at hr
  have hr := runs_write_word hh.1 hr
  rw [ha.addr] at hr
  have hst := hst a rfl
  have h' : OnStack (Function.update M (addrOf a) v) lv (v :: a :: R) := by
    refine ⟨h.len, h.top, h.below.congr (fun j _ => ?_)⟩
    rw [Function.update_of_ne]
    intro e
    rw [← e] at hst
    exact hst ⟨rfl, rfl⟩
  have hM' : ∀ x, Function.update M (addrOf a) v x < 2 ^ 256 := by
    intro x
    rw [Function.update_apply]
    split
    · exact hh.1
    · exact hM x
  obtain ⟨h1, h2⟩ := pop_on h' hM' hP (A := [v, a]) (R := R) rfl (by simp) hr (by rw [hl]; simp) hc
  exact ⟨v, a, R, rfl, h1, h2⟩

/-! ### Results -/

theorem Step.eq_result (hs : Step L lv nv) (h1 : lv EQ_ISZERO = 1) {a b : ℕ} (ha : Holds lv 0 a) (hb : Holds lv 1 b) : Holds nv 0 (if a = b then 1 else 0) := by
  have get : ∀ v : F, (⟨.always, lv EQ_ISZERO * v⟩ : Constr F) ∈ evalNot lv nv ++ evalEqIszero lv nv → v = 0 := by
    intro v hv
    have := hs.get logic_mem hv (.inl rfl)
    rwa [h1, one_mul] at this
  have hbit := get (nv (VALUE 0 0) * (1 - nv (VALUE 0 0))) (by rw [← mul_assoc]; simp [evalEqIszero])
  have hhi : ∀ k, 1 ≤ k → k < 8 → nv (VALUE 0 k) = 0 := by
    intro k hk1 hk2
    refine get _ (List.mem_append_right _ ?_)
    unfold evalEqIszero
    simp only [List.mem_append]
    exact .inl (.inl (.inl (.inl (.inl (.inr (List.mem_map.2 ⟨k, by rw [List.mem_range'_1]; omega, rfl⟩))))))
  have heq : ∀ k < 8, nv (VALUE 0 0) * (lv (VALUE 0 k) - lv (VALUE 1 k)) = 0 := by
    intro k hk
    refine get _ (List.mem_append_right _ ?_)
    unfold evalEqIszero
    rw [← mul_assoc]
    simp only [List.mem_append]
    exact .inl (.inl (.inl (.inr (List.mem_map.2 ⟨k, List.mem_range.2 hk, rfl⟩))))
  have hdot := get (((List.range 8).map (fun k => (lv (VALUE 0 k) - lv (VALUE 1 k)) * lv (GENERAL k))).sum - (1 - nv (VALUE 0 0)))
    (List.mem_append_right _ (by
      unfold evalEqIszero
      simp only [List.mem_append]
      exact .inl (.inl (.inr (List.mem_singleton.2 rfl)))))
  rcases mul_eq_zero.1 hbit with h0 | h0
  · have hne : a ≠ b := by
      rintro rfl
      rw [h0, sum_zero (fun k hk => by rw [ha.2 k (List.mem_range.1 hk), hb.2 k (List.mem_range.1 hk), sub_self, zero_mul])] at hdot
      norm_num at hdot
    rw [if_neg hne]
    exact holds_small (by decide) (by rw [h0]; simp) hhi
  · have h0' : nv (VALUE 0 0) = 1 := (sub_eq_zero.1 h0).symm
    have he : a = b := by
      refine limbs_inj ha.1 hb.1 ?_
      rw [← ha.value, ← hb.value]
      refine value_eq (fun k hk => ?_)
      have := heq k hk
      rw [h0', one_mul] at this
      exact sub_eq_zero.1 this
    rw [if_pos he]
    exact holds_small (by decide) (by rw [h0']; simp) hhi

theorem Step.iszero_operand (hs : Step L lv nv) (h1 : lv EQ_ISZERO = 1) (hb : lv (BIT 0) = 1) : Holds lv 1 0 := by
  refine ⟨by decide, fun k hk => ?_⟩
  have := hs.get logic_mem (w := .always) (v := lv EQ_ISZERO * lv (BIT 0) * lv (VALUE 1 k)) (List.mem_append_right _ (by
    unfold evalEqIszero
    simp only [List.mem_append]
    exact .inl (.inl (.inl (.inl (.inr (List.mem_map.2 ⟨k, List.mem_range.2 hk, rfl⟩)))))) ) (.inl rfl)
  rw [h1, hb, one_mul, one_mul] at this
  rw [this]
  simp

theorem not_limb {a : ℕ} (ha : a < 2 ^ 256) {k : ℕ} (hk : k < 8) : (2 ^ 256 - 1 - a) / 2 ^ (32 * k) % 2 ^ 32 = 2 ^ 32 - 1 - a / 2 ^ (32 * k) % 2 ^ 32 := by
  interval_cases k <;> norm_num at ha ⊢ <;> omega

theorem Step.not_result (hs : Step L lv nv) (h1 : lv NOT_POP = 1) (hb : lv (BIT 0) = 1) {a : ℕ} (ha : Holds lv 0 a) : Holds nv 0 (2 ^ 256 - 1 - a) := by
  refine ⟨by omega, fun k hk => ?_⟩
  have := hs.get logic_mem (w := .always) (v := lv NOT_POP * lv (BIT 0) * (nv (VALUE 0 k) + lv (VALUE 0 k) - (2 ^ 32 - 1)))
    (List.mem_append_left _ (List.mem_append_left _ (List.mem_map.2 ⟨k, List.mem_range.2 hk, rfl⟩))) (.inl rfl)
  rw [h1, hb, one_mul, one_mul, ha.2 k hk] at this
  rw [not_limb ha.1 hk]
  have hlt : a / 2 ^ (32 * k) % 2 ^ 32 < 2 ^ 32 := Nat.mod_lt _ (by decide)
  generalize a / 2 ^ (32 * k) % 2 ^ 32 = y at this hlt
  rw [Nat.cast_sub (by omega)]
  push_cast
  linear_combination this

theorem Step.pc_result (hs : Step L lv nv) (h1 : lv PC_PUSH0 = 1) (hb : lv (BIT 0) = 0) (hpc : (lv PC).val < 2 ^ 32) : Holds nv 0 (lv PC).val := by
  have get : ∀ v : F, (⟨.always, lv PC_PUSH0 * (1 - lv (BIT 0)) * v⟩ : Constr F) ∈ evalPc lv nv → v = 0 := by
    intro v hv
    have := hs.get (g := evalPc lv nv) (by simp [groups]) hv (.inl rfl)
    rw [h1, hb] at this
    linear_combination this
  refine holds_small hpc ?_ (fun k hk1 hk2 => ?_)
  · rw [ZMod.natCast_zmod_val]
    exact sub_eq_zero.1 (get _ (by simp [evalPc]))
  · refine get _ ?_
    unfold evalPc
    exact List.mem_append_right _ (List.mem_map.2 ⟨k, by rw [List.mem_range'_1]; omega, rfl⟩)

theorem Step.push0_result (hs : Step L lv nv) (h1 : lv PC_PUSH0 = 1) (hb : lv (BIT 0) = 1) : Holds nv 0 0 := by
  refine ⟨by decide, fun k hk => ?_⟩
  have := hs.get (g := evalPush0 lv nv) (by simp [groups]) (w := .always) (v := lv PC_PUSH0 * lv (BIT 0) * nv (VALUE 0 k)) (List.mem_map.2 ⟨k, List.mem_range.2 hk, rfl⟩) (.inl rfl)
  rw [h1, hb, one_mul, one_mul] at this
  rw [this]
  simp

theorem Step.get_result (hs : Step L lv nv) (h1 : lv CONTEXT_OP = 1) (hb : lv (BIT 0) = 0) (hc : (lv CONTEXT).val < 2 ^ 32) :
    Holds nv 0 ((lv CONTEXT).val * 2 ^ 64) := by
  have get : ∀ v : F, (⟨.always, lv CONTEXT_OP * (1 - lv (BIT 0)) * v⟩ : Constr F) ∈ evalContextGet lv nv → v = 0 := by
    intro v hv
    have := hs.get context_mem (v := lv CONTEXT_OP * (1 - lv (BIT 0)) * v) (w := .always) (by
      unfold evalContext
      exact List.mem_append_left _ (List.mem_append_left _ (List.mem_append_right _ hv))) (.inl rfl)
    rw [h1, hb] at this
    linear_combination this
  have h2 := get (nv (VALUE 0 2) - lv CONTEXT) (by simp [evalContextGet])
  have h2' : nv (VALUE 0 2) = ((lv CONTEXT).val : F) := by rw [ZMod.natCast_zmod_val]; exact sub_eq_zero.1 h2
  generalize (lv CONTEXT).val = y at hc h2'
  have hz : ∀ k ∈ [0, 1, 3, 4, 5, 6, 7], nv (VALUE 0 k) = 0 := by
    intro k hk
    refine get _ ?_
    unfold evalContextGet
    exact List.mem_append_left _ (List.mem_append_right _ (List.mem_map.2 ⟨k, hk, rfl⟩))
  refine ⟨by norm_num at hc ⊢; omega, fun k hk => ?_⟩
  by_cases e : k = 2
  · subst e
    have : y * 2 ^ 64 / 2 ^ (32 * 2) % 2 ^ 32 = y := by omega
    rw [h2', this]
  · rw [hz k (by interval_cases k <;> simp at e ⊢)]
    have : y * 2 ^ 64 / 2 ^ (32 * k) % 2 ^ 32 = 0 := by
      interval_cases k <;> first | exact absurd rfl e | omega
    rw [this]
    simp

/-! ### Lookups -/

section
variable {n : ℕ} {T : ℕ → Row F} {i : ℕ}

theorem System.arith_result (sys : System L n T) (hi : i + 1 < n) (hf : arithFilter (T i) = 1) :
    ∃ a b c out, Arith.Exports sys.m sys.A (op (T i)) a b c out ∧ Holds (T i) 0 a ∧ Holds (T i) 1 b ∧ Holds (T i) 2 c ∧ Holds (T (i + 1)) 0 out := by
  obtain ⟨o, a, b, c, out, he, ho, ha, hb, hc, hout⟩ := sys.arithLink i (by omega) hf
  rw [Nat.mod_eq_of_lt hi] at hout
  have hlt : o < 256 := by
    obtain ⟨_, _, _, _, h, _⟩ := he
    exact h
  have : op (T i) = o := by
    unfold op
    rw [ho, ZMod.val_natCast, Nat.mod_eq_of_lt (lt_of_lt_of_le hlt (by decide +kernel))]
  rw [this]
  exact ⟨a, b, c, out, he, ha, hb, hc, hout⟩

theorem System.logic_result (sys : System L n T) (hi : i + 1 < n) (hf : T i LOGIC = 1) :
    ∃ a b out, Logic.LogicSpec (op (T i)) a b out ∧ Holds (T i) 0 a ∧ Holds (T i) 1 b ∧ Holds (T (i + 1)) 0 out := by
  obtain ⟨o, a, b, out, he, ho, ha, hb, hout⟩ := sys.logicLink i (by omega) hf
  rw [Nat.mod_eq_of_lt hi] at hout
  have hlt : o < 256 := by
    obtain ⟨_, _, _, _, h, _⟩ := he
    exact h
  have : op (T i) = o := by
    unfold op
    rw [ho, ZMod.val_natCast, Nat.mod_eq_of_lt (lt_of_lt_of_le hlt (by decide +kernel))]
  rw [this]
  exact ⟨a, b, out, Logic.C41_logic sys.logic he, ha, hb, hout⟩

theorem arith_filter (h : Always L lv nv) {f : ℕ} (hf : f ∈ [BINARY, FP254, TERNARY, SHIFT]) (h1 : lv f = 1) : arithFilter lv = 1 := by
  have hfl : f ∈ flags := (show ∀ g ∈ [BINARY, FP254, TERNARY, SHIFT], g ∈ flags by decide) f hf
  have ho := h.only hfl h1
  unfold arithFilter
  simp only [List.mem_cons, List.not_mem_nil, or_false] at hf
  rcases hf with rfl | rfl | rfl | rfl
  · rw [h1, ho PUSH_PROVER (by decide) (by decide), ho FP254 (by decide) (by decide), ho TERNARY (by decide) (by decide), ho SHIFT (by decide) (by decide),
      ho SYSCALL (by decide) (by decide), ho EXCEPTION (by decide) (by decide)]
    ring
  · rw [h1, ho PUSH_PROVER (by decide) (by decide), ho BINARY (by decide) (by decide), ho TERNARY (by decide) (by decide), ho SHIFT (by decide) (by decide),
      ho SYSCALL (by decide) (by decide), ho EXCEPTION (by decide) (by decide)]
    ring
  · rw [h1, ho PUSH_PROVER (by decide) (by decide), ho FP254 (by decide) (by decide), ho BINARY (by decide) (by decide), ho SHIFT (by decide) (by decide),
      ho SYSCALL (by decide) (by decide), ho EXCEPTION (by decide) (by decide)]
    ring
  · rw [h1, ho PUSH_PROVER (by decide) (by decide), ho FP254 (by decide) (by decide), ho TERNARY (by decide) (by decide), ho BINARY (by decide) (by decide),
      ho SYSCALL (by decide) (by decide), ho EXCEPTION (by decide) (by decide)]
    ring

theorem prover_filter (h : Always L lv nv) (h1 : lv PUSH_PROVER = 1) (hb : lv (BIT 7) = 1) : arithFilter lv = 1 := by
  have ho := h.only (f := PUSH_PROVER) (by decide) h1
  unfold arithFilter
  rw [h1, hb, ho FP254 (by decide) (by decide), ho TERNARY (by decide) (by decide), ho BINARY (by decide) (by decide), ho SHIFT (by decide) (by decide),
    ho SYSCALL (by decide) (by decide), ho EXCEPTION (by decide) (by decide)]
  ring

end

end Verif.Stark.Cpu
