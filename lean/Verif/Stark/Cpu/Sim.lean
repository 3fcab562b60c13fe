import Verif.Stark.Cpu.Machine

/-! C95: the stack machine. Words, stacks and memory operations. -/

namespace Verif.Stark.Cpu

variable {L : Labels} {lv nv r : Row F} {M M' : Mem} {S : List ℕ}

/-! ### Words -/

theorem limb_lt (a k : ℕ) : a / 2 ^ (32 * k) % 2 ^ 32 < P := lt_of_lt_of_le (Nat.mod_lt _ (by decide)) (by decide +kernel)

theorem word_ext {a b : ℕ} (ha : a < 2 ^ 256) (hb : b < 2 ^ 256) (h : ∀ k < 8, a / 2 ^ (32 * k) % 2 ^ 32 = b / 2 ^ (32 * k) % 2 ^ 32) : a = b := by
  refine Nat.eq_of_testBit_eq (fun i => ?_)
  by_cases hi : i < 256
  · have key : ∀ x : ℕ, x.testBit i = (x / 2 ^ (32 * (i / 32)) % 2 ^ 32).testBit (i % 32) := by
      intro x
      rw [Nat.testBit_mod_two_pow, Nat.testBit_div_two_pow, decide_eq_true (Nat.mod_lt _ (by decide)), Bool.true_and]
      congr 1
      omega
    rw [key a, key b, h (i / 32) (by omega)]
  · have : 2 ^ 256 ≤ 2 ^ i := Nat.pow_le_pow_right (by decide) (by omega)
    rw [Nat.testBit_lt_two_pow (by omega), Nat.testBit_lt_two_pow (by omega)]

theorem Holds.unique {c a b : ℕ} (ha : Holds r c a) (hb : Holds r c b) : a = b :=
  word_ext ha.1 hb.1 (fun k hk => Arith.lift_nat ((ha.2 k hk).symm.trans (hb.2 k hk)) (limb_lt a k) (limb_lt b k))

theorem Holds.value {c a : ℕ} (h : Holds r c a) : value r c = limbs a := List.map_congr_left (fun k hk => h.2 k (List.mem_range.1 hk))

theorem holds_value {c a : ℕ} (ha : a < 2 ^ 256) (h : value r c = limbs a) : Holds r c a :=
  ⟨ha, fun k hk => List.map_inj_left.1 h k (List.mem_range.2 hk)⟩

theorem limbs_inj {a b : ℕ} (ha : a < 2 ^ 256) (hb : b < 2 ^ 256) (h : limbs a = limbs b) : a = b :=
  word_ext ha hb (fun k hk => Arith.lift_nat (List.map_inj_left.1 h k (List.mem_range.2 hk)) (limb_lt a k) (limb_lt b k))

theorem holds_small {c a : ℕ} (ha : a < 2 ^ 32) (h0 : r (VALUE c 0) = (a : F)) (h : ∀ k, 1 ≤ k → k < 8 → r (VALUE c k) = 0) : Holds r c a := by
  refine ⟨lt_trans ha (by decide), fun k hk => ?_⟩
  rcases Nat.eq_zero_or_pos k with e | e
  · subst e
    rw [h0, Nat.mul_zero, Nat.pow_zero, Nat.div_one, Nat.mod_eq_of_lt ha]
  · rw [h k e hk, Nat.div_eq_of_lt (lt_of_lt_of_le ha (Nat.pow_le_pow_right (by decide) (by omega)))]
    simp

/-! ### Memory operations -/

theorem runs_nil : Runs M [] M' ↔ M' = M := Iff.rfl

theorem runs_read {c s v : F} {x : List F} {ms : List MemOp} : Runs M (⟨1, c, s, v, x⟩ :: ms) M' ↔ x = limbs (M (c, s, v)) ∧ Runs M ms M' := by
  show (if (1 : F) = 1 then _ else _) ↔ _
  rw [if_pos rfl]
  rfl

theorem runs_write {c s v : F} {x : List F} {ms : List MemOp} :
    Runs M (⟨0, c, s, v, x⟩ :: ms) M' ↔ ∃ w < 2 ^ 256, x = limbs w ∧ Runs (Function.update M (c, s, v) w) ms M' := by
  show (if (0 : F) = 1 then _ else _) ↔ _
  rw [if_neg zero_ne_one]
  rfl

theorem runs_write_word {c s v : F} {a : ℕ} (ha : a < 2 ^ 256) {ms : List MemOp} (h : Runs M (⟨0, c, s, v, limbs a⟩ :: ms) M') :
    Runs (Function.update M (c, s, v) a) ms M' := by
  obtain ⟨w, hw, he, hr⟩ := runs_write.1 h
  rw [limbs_inj ha hw he]
  exact hr

theorem Runs.words : ∀ {ms : List MemOp} {M : Mem}, (∀ x, M x < 2 ^ 256) → Runs M ms M' → ∀ x, M' x < 2 ^ 256
  | [], M, hM, h => by rw [runs_nil] at h; rw [h]; exact hM
  | m :: ms, M, hM, h => by
    unfold Runs at h
    split at h
    · exact Runs.words hM h.2
    · obtain ⟨v, hv, _, hr⟩ := h
      refine Runs.words (fun x => ?_) hr
      rw [Function.update_apply]
      split
      · exact hv
      · exact hM x

/-! ### Stacks -/

theorem nat_inj {a b : ℕ} (ha : a < P) (hb : b < P) (h : (a : F) = (b : F)) : a = b := Arith.lift_nat h ha hb

theorem Below.congr {ctx : F} : ∀ {S : List ℕ}, (∀ j < S.length, M' (ctx, SEG_STACK, (j : F)) = M (ctx, SEG_STACK, (j : F))) → Below M ctx S → Below M' ctx S
  | [], _, _ => trivial
  | a :: S, h, hb => ⟨(h S.length (by simp)).trans hb.1, Below.congr (fun j hj => h j (by simp; omega)) hb.2⟩

theorem Below.get {ctx : F} : ∀ {A : List ℕ} {a : ℕ} {B : List ℕ}, Below M ctx (A ++ a :: B) → M (ctx, SEG_STACK, (B.length : F)) = a ∧ Below M ctx B
  | [], _, _, h => h
  | _ :: A, _, _, h => Below.get (A := A) h.2

theorem Below.update {ctx : F} {j w : ℕ} (hj : S.length ≤ j) (hP : j < P) (h : Below M ctx S) : Below (Function.update M (ctx, SEG_STACK, (j : F)) w) ctx S := by
  refine h.congr (fun k hk => ?_)
  rw [Function.update_of_ne]
  intro e
  have := nat_inj (by omega) hP (Prod.mk.inj (Prod.mk.inj e).2).2
  omega

theorem Below.set {ctx : F} : ∀ {A : List ℕ} {b : ℕ} {B : List ℕ} (a : ℕ), (A ++ b :: B).length < P → Below M ctx (A ++ b :: B) →
    Below (Function.update M (ctx, SEG_STACK, (B.length : F)) a) ctx (A ++ a :: B)
  | [], _, B, a, hP, h => ⟨by simp, Below.update (le_refl _) (by simp at hP; omega) h.2⟩
  | c :: A, b, B, a, hP, h => by
    have hP' : (A ++ b :: B).length < P := by simp at hP ⊢; omega
    refine ⟨?_, Below.set a hP' h.2⟩
    have hl : (A ++ a :: B).length = (A ++ b :: B).length := by simp
    rw [Function.update_of_ne]
    · exact (congrArg M (congrArg (fun k : ℕ => (ctx, (SEG_STACK : F), (k : F))) hl)).trans h.1
    · intro e
      have := nat_inj (a := (A ++ a :: B).length) (by rw [hl]; exact hP') (by simp at hP'; omega) (Prod.mk.inj (Prod.mk.inj e).2).2
      simp at this
      omega

/-- Nothing outside the stack of the context changes. -/
def Frame (ctx : F) (M M' : Mem) : Prop := ∀ x : F × F × F, ¬ (x.1 = ctx ∧ x.2.1 = SEG_STACK) → M' x = M x

theorem Frame.refl {ctx : F} : Frame ctx M M := fun _ _ => rfl

theorem Frame.update {ctx v : F} {w : ℕ} : Frame ctx M (Function.update M (ctx, SEG_STACK, v) w) := by
  intro x hx
  rw [Function.update_of_ne]
  rintro rfl
  exact hx ⟨rfl, rfl⟩

theorem OnStack.zero (h : OnStack M lv S) (hP : S.length < P) : lv STACK_LEN = 0 ↔ S = [] := by
  rw [h.len]
  constructor
  · intro e
    have := nat_inj hP (by decide +kernel) (e.trans Nat.cast_zero.symm)
    exact List.length_eq_zero_iff.1 this
  · rintro rfl
    simp

/-- Pushing: the old top is written below. -/
theorem push_on (h : OnStack M lv S) (hP : S.length + 1 < P) (hr : Runs M (spill lv) M') (hl : nv STACK_LEN = lv STACK_LEN + 1)
    (hc : nv CONTEXT = lv CONTEXT) {a : ℕ} (ha : Holds nv 0 a) : OnStack M' nv (a :: S) ∧ Frame (lv CONTEXT) M M' := by
  have hb : Below M' (lv CONTEXT) S ∧ Frame (lv CONTEXT) M M' := by
    unfold spill at hr
    cases S with
    | nil =>
      rw [if_pos ((h.zero (by omega)).2 rfl)] at hr
      rw [runs_nil.1 hr]
      exact ⟨trivial, Frame.refl⟩
    | cons b S =>
      rw [if_neg (fun e => absurd ((h.zero (by omega)).1 e) (by simp))] at hr
      have hh := h.top b rfl
      rw [hh.value] at hr
      have hr := runs_nil.1 (runs_write_word hh.1 hr)
      have hp : lv STACK_LEN - 1 = (S.length : F) := by rw [h.len]; push_cast [List.length_cons]; ring
      rw [hp] at hr
      rw [hr]
      exact ⟨⟨by simp, Below.update (le_refl _) (by simp at hP; omega) h.below⟩, Frame.update⟩
  refine ⟨⟨?_, ?_, ?_⟩, hb.2⟩
  · rw [hl, h.len]
    push_cast [List.length_cons]
    ring
  · intro b hb
    simp only [List.head?_cons, Option.some.injEq] at hb
    rw [← hb]
    exact ha
  · rw [hc]
    exact hb.1

/-- Taking off: the new top is read. -/
theorem pop_on (h : OnStack M lv S) (hM : ∀ x, M x < 2 ^ 256) (hP : S.length + 1 < P) {A R : List ℕ} (hS : S = A ++ R) (hA : A ≠ [])
    (hr : Runs M (newTop lv nv A.length) M') (hl : nv STACK_LEN + (A.length : F) = lv STACK_LEN) (hc : nv CONTEXT = lv CONTEXT) : OnStack M' nv R ∧ M' = M := by
  have hlen : nv STACK_LEN = (R.length : F) := by
    rw [h.len, hS, List.length_append] at hl
    push_cast at hl
    linear_combination hl
  have hbelow : Below M (lv CONTEXT) R := by
    obtain ⟨a, A, rfl⟩ := List.exists_cons_of_ne_nil hA
    have := h.below
    rw [hS, List.cons_append, List.tail_cons] at this
    cases R with
    | nil => trivial
    | cons b R => exact (⟨this.get.1, this.get.2⟩ : _ ∧ _)
  unfold newTop at hr
  cases R with
  | nil =>
    rw [if_pos (by rw [h.len, hS]; simp)] at hr
    rw [runs_nil.1 hr]
    exact ⟨⟨hlen, by simp, trivial⟩, rfl⟩
  | cons b R =>
    rw [if_neg (fun e => by
      rw [h.len] at e
      have := nat_inj (by omega) (by rw [hS] at hP; simp at hP; omega) e
      rw [hS] at this
      simp at this)] at hr
    obtain ⟨hv, hr⟩ := runs_read.1 hr
    have hp : lv STACK_LEN - (A.length : F) - 1 = (R.length : F) := by
      rw [h.len, hS, List.length_append]
      push_cast [List.length_cons]
      ring
    rw [hp, hbelow.1] at hv
    rw [runs_nil.1 hr]
    refine ⟨⟨hlen, ?_, ?_⟩, rfl⟩
    · intro c hc
      simp only [List.head?_cons, Option.some.injEq] at hc
      subst hc
      exact holds_value (by rw [← hbelow.1]; exact hM _) hv
    · rw [hc]
      exact hbelow.2

/-- Replacing some elements by one. -/
theorem replace_on (h : OnStack M lv S) {a : ℕ} {A R : List ℕ} (hS : S = a :: A ++ R) (hl : nv STACK_LEN + (A.length : F) = lv STACK_LEN)
    (hc : nv CONTEXT = lv CONTEXT) {out : ℕ} (ho : Holds nv 0 out) : OnStack M nv (out :: R) := by
  refine ⟨?_, ?_, ?_⟩
  · rw [h.len, hS] at hl
    push_cast [List.length_cons, List.cons_append, List.length_append] at hl ⊢
    linear_combination hl
  · intro b hb
    simp only [List.head?_cons, Option.some.injEq] at hb
    rw [← hb]
    exact ho
  · rw [hc]
    have := h.below
    rw [hS, List.cons_append, List.tail_cons] at this
    cases R with
    | nil => trivial
    | cons b R => exact (⟨this.get.1, this.get.2⟩ : _ ∧ _)

/-- The second element, read from the stack. -/
theorem second_on (h : OnStack M lv S) (hM : ∀ x, M x < 2 ^ 256) {a b : ℕ} {R : List ℕ} (hS : S = a :: b :: R) {c : ℕ} {ms : List MemOp}
    (hr : Runs M (rdStack lv (lv STACK_LEN - 2) (value lv c) :: ms) M') : Holds lv c b ∧ Runs M ms M' := by
  obtain ⟨hv, hr⟩ := runs_read.1 hr
  have hb := h.below
  rw [hS] at hb
  have hp : lv STACK_LEN - 2 = (R.length : F) := by rw [h.len, hS]; push_cast [List.length_cons]; ring
  rw [hp, hb.1] at hv
  exact ⟨holds_value (by rw [← hb.1]; exact hM _) hv, hr⟩

/-- The third one. -/
theorem third_on (h : OnStack M lv S) (hM : ∀ x, M x < 2 ^ 256) {a b d : ℕ} {R : List ℕ} (hS : S = a :: b :: d :: R) {c : ℕ} {ms : List MemOp}
    (hr : Runs M (rdStack lv (lv STACK_LEN - 3) (value lv c) :: ms) M') : Holds lv c d ∧ Runs M ms M' := by
  obtain ⟨hv, hr⟩ := runs_read.1 hr
  have hb := h.below
  rw [hS] at hb
  have hp : lv STACK_LEN - 3 = (R.length : F) := by rw [h.len, hS]; push_cast [List.length_cons]; ring
  rw [hp, hb.2.1] at hv
  exact ⟨holds_value (by rw [← hb.2.1]; exact hM _) hv, hr⟩

end Verif.Stark.Cpu
