import Verif.Kasm.Limbs
import Verif.Kasm.Code.Bignum
import Verif.Kasm.Jumpdest

/-! The kernel's arithmetic on integers of 128-bit limbs, `asm/bignum/*.asm`. -/

namespace Verif.Kasm

variable {P : Prog} {ret : Nat} {s : List Nat}

theorem wshr128 (x : Nat) : wshr 128 x = x / 2 ^ 128 := by simp only [wshr]; rw [if_neg (by omega)]
theorem wmod128 (x : Nat) : wmod x 0x100000000000000000000000000000000 = x % 2 ^ 128 := by
  simp only [wmod]; rw [if_neg (by omega)]; rfl
theorem wlow128 (x : Nat) : wshr 128 (wshl 128 x) = x % 2 ^ 128 := by
  simp only [wshr, wshl]; rw [if_neg (by omega), if_neg (by omega)]; omega

/-- The frame of a step on the first of several cells, and of what is done to the others. -/
theorem Leaves.step {w w' : World} {l n v : Nat} (h : Leaves (w.set (base w + l) v) w' (l + 1) n) :
    Leaves w w' l (n + 1) :=
  (leaves_set' (n := n + 1) (by omega)).trans
    (h.widen (by omega) (by omega))

theorem limbs_step {w w' : World} {l n v : Nat} (h : Leaves (w.set (base w + l) v) w' (l + 1) n) :
    limbs w' l 0 = v := by
  rw [limbs, h.base_eq, h.2 _ (.inl (by simp only [base, set_ctx]; omega))]
  simp only [base, Nat.add_zero, World.set, if_true]

theorem num_succ (w : World) (l n : Nat) :
    num (limbs w l) (n + 1) = limbs w l 0 + 2 ^ 128 * num (limbs w (l + 1)) n := by
  rw [num, limbs_succ]

theorem small_succ {w : World} {l n : Nat} :
    Small (limbs w l) (n + 1) ↔ limbs w l 0 < 2 ^ 128 ∧ Small (limbs w (l + 1)) n := by
  constructor
  · intro h; exact ⟨h 0 (by omega), by rw [← limbs_succ]; exact h.tail⟩
  · rintro ⟨h0, h⟩ i hi
    match i with
    | 0 => exact h0
    | i + 1 => rw [← limbs_succ] at h; exact h i (by omega)

theorem limbs_set {w : World} {l l' n i v : Nat} (h : Apart l' 1 l n) (hi : i < n) :
    limbs (w.set (base w + l') v) l i = limbs w l i := by
  refine Leaves.limbs_eq (leaves_set' (n := 1) (by omega)) h hi

/-! ### Addition -/

theorem add_step {B r c1 t N A D k p : Nat} (h1 : r + B * c1 = t) (h2 : N + k * p = A + D + c1) :
    (r + B * N) + k * (p * B) = t + B * A + B * D := by
  subst h1
  have : B * (N + k * p) = B * (A + D + c1) := by rw [h2]
  linarith [this]

/-- One round of `asm/bignum/add.asm:15-56`. -/
theorem add_body {w : World} {c la lb n : Nat} (hc : w.ctx < 2 ^ 32) (hla : la + (n + 1) ≤ 2 ^ 32)
    (hlb : lb + (n + 1) ≤ 2 ^ 32) (ha : w.mem (base w + la) < 2 ^ 128) (hb : w.mem (base w + lb) < 2 ^ 128)
    (hcar : c ≤ 1) (hn : n < 2 ^ 32) :
    exec P b_add_loop (c :: base w :: (n + 1) :: la :: lb :: ret :: s) w =
      if n = 0 then
        exec P b_add_end ((w.mem (base w + la) + w.mem (base w + lb) + c) / 2 ^ 128 :: base w :: n ::
          (la + 1) :: (lb + 1) :: ret :: s)
          (w.set (base w + la) ((w.mem (base w + la) + w.mem (base w + lb) + c) % 2 ^ 128))
      else .goto (P.addr "add_loop")
        ((w.mem (base w + la) + w.mem (base w + lb) + c) / 2 ^ 128 :: base w :: n ::
          (la + 1) :: (lb + 1) :: ret :: s)
          (w.set (base w + la) ((w.mem (base w + la) + w.mem (base w + lb) + c) % 2 ^ 128)) := by
  rw [b_add_loop]
  generalize b_add_end = e
  kexec [m_shr_const, m_mod_const, m_swap_mstore, m_increment, m_decrement, m_add_const, m_sub_const]
  rw [wadd_base' hc (by omega), exec_load hc (by omega)]
  kexec []
  rw [wadd_base' hc (by omega), exec_load hc (by omega)]
  kexec []
  rw [wadd_base' hc (by omega), exec_store hc (by omega)]
  kexec []
  rw [wadd_small (a := w.mem _) (by omega), wadd_small (a := w.mem _ + _) (by omega), wshr128, wmod128, wsub_small (by omega) (by omega), wadd_small (by omega), wadd_small (by omega), Nat.add_comm 1 la, Nat.add_comm 1 lb]
  simp only [Nat.add_sub_cancel]

/-- `asm/bignum/add.asm:15-64`. -/
theorem run_add_loop (hP : P.Has bignumCode) :
    ∀ (n : Nat) (w : World) (c la lb : Nat), w.ctx < 2 ^ 32 → la + (n + 1) ≤ 2 ^ 32 → lb + (n + 1) ≤ 2 ^ 32 →
      Apart la (n + 1) lb (n + 1) → Small (limbs w la) (n + 1) → Small (limbs w lb) (n + 1) → c ≤ 1 →
      ∃ c' w', Reaches P (exec P b_add_loop (c :: base w :: (n + 1) :: la :: lb :: ret :: s) w)
          (.goto ret (c' :: s) w') ∧
        num (limbs w' la) (n + 1) + c' * (2 ^ 128) ^ (n + 1)
          = num (limbs w la) (n + 1) + num (limbs w lb) (n + 1) + c ∧
        c' ≤ 1 ∧ Small (limbs w' la) (n + 1) ∧ Leaves w w' la (n + 1) ∧ w'.inp = w.inp := by
  intro n
  induction n with
  | zero =>
    intro w c la lb hc hla hlb hap hsa hsb hcar
    have ha : w.mem (base w + la) < 2 ^ 128 := hsa 0 (by omega)
    have hb : w.mem (base w + lb) < 2 ^ 128 := hsb 0 (by omega)
    rw [add_body hc hla hlb ha hb hcar (by omega), if_pos rfl, b_add_end]
    kexec []
    refine ⟨_, _, .refl _, ?_, by omega, ?_, leaves_set' (by omega), rfl⟩
    · simp only [num, limbs, base, set_ctx, Nat.add_zero, set_same] at *
      omega
    · intro i hi
      obtain rfl : i = 0 := by omega
      simp only [limbs, base, set_ctx, Nat.add_zero, set_same]; omega
  | succ n ih =>
    intro w c la lb hc hla hlb hap hsa hsb hcar
    have ha : w.mem (base w + la) < 2 ^ 128 := hsa 0 (by omega)
    have hb : w.mem (base w + lb) < 2 ^ 128 := hsb 0 (by omega)
    rw [add_body hc hla hlb ha hb hcar (by omega), if_neg (by omega)]
    have hap1 : Apart la 1 (la + 1) (n + 1) := .inl (by omega)
    have hap2 : Apart la 1 (lb + 1) (n + 1) := by simp only [Apart] at *; omega
    have hk := leaves_set' (w := w) (l := la) (n := 1)
      (v := (w.mem (base w + la) + w.mem (base w + lb) + c) % 2 ^ 128) (by omega)
    obtain ⟨c', w', h1, h2, h3, h4, h5, h6⟩ := ih (w.set (base w + la) _)
      ((w.mem (base w + la) + w.mem (base w + lb) + c) / 2 ^ 128) (la + 1) (lb + 1) hc (by omega) (by omega)
      (by simp only [Apart] at *; omega)
      (hk.small hap1 (small_succ.1 hsa).2) (hk.small hap2 (small_succ.1 hsb).2) (by omega)
    refine ⟨c', w', ?_, ?_, h3, ?_, h5.step, h6⟩
    · enter hP in bignumCode
      exact h1
    · rw [hk.num_eq hap1, hk.num_eq hap2] at h2
      rw [num_succ w' la, num_succ w la, num_succ w lb, limbs_step h5, limbs_zero, limbs_zero, pow_succ (2 ^ 128) (n + 1)]
      have := add_step (B := 2 ^ 128) (r := (w.mem (base w + la) + w.mem (base w + lb) + c) % 2 ^ 128)
        (t := w.mem (base w + la) + w.mem (base w + lb) + c) (by omega) h2
      omega
    · refine small_succ.2 ⟨?_, h4⟩
      rw [limbs_step h5]; omega

/-- `asm/bignum/add.asm:6-73`: `a` becomes the low part of `a + b`, and the carry is returned. -/
theorem run_add (hP : P.Has bignumCode) {w : World} {n la lb : Nat} (hc : w.ctx < 2 ^ 32)
    (hla : la + n ≤ 2 ^ 32) (hlb : lb + n ≤ 2 ^ 32) (hap : Apart la n lb n) (hsa : Small (limbs w la) n)
    (hsb : Small (limbs w lb) n) :
    ∃ c w', Reaches P (.goto (P.addr "add_bignum") (n :: la :: lb :: ret :: s) w)
        (.goto ret (c :: s) w') ∧
      num (limbs w' la) n + c * (2 ^ 128) ^ n = num (limbs w la) n + num (limbs w lb) n ∧
      c ≤ 1 ∧ Small (limbs w' la) n ∧ Leaves w w' la n ∧ w'.inp = w.inp := by
  match n with
  | 0 =>
    refine ⟨0, w, ?_, by simp [num], by omega, fun i hi => by omega, .refl .., rfl⟩
    enter hP in bignumCode
    rw [b_add_bignum]
    kexec [ne_eq, not_true, if_false]
    enter hP in bignumCode
    kexec [b_len_zero_add, m_pop3, rep]
    exact .refl _
  | n + 1 =>
    obtain ⟨c, w', h1, h2, h3⟩ := run_add_loop (ret := ret) (s := s) hP n w 0 la lb hc hla hlb hap hsa hsb (by omega)
    refine ⟨c, w', ?_, h2, h3⟩
    enter hP in bignumCode
    rw [b_add_bignum]
    generalize b_add_loop = t at *
    kexec [ne_eq, Nat.add_one_ne_zero, not_false_iff]
    rw [exec_general, general_base hc]
    kexec []
    exact h1

/-! ### Addition of a multiple -/

theorem addmul_words {a b v c : Nat} (ha : a < 2 ^ 128) (hb : b < 2 ^ 128) (hv : v < 2 ^ 128)
    (hc : c < 2 ^ 128) :
    (v * b + a + c) / 2 ^ 128 < 2 ^ 128 ∧
    wshr 128 (wshl 128 (wadd (wshr 128 (wshl 128 (wadd (wshr 128 (wshl 128 (wmul v b))) a))) c))
      = (v * b + a + c) % 2 ^ 128 ∧
    wadd (wlt (wshr 128 (wshl 128 (wadd (wshr 128 (wshl 128 (wadd (wshr 128 (wshl 128 (wmul v b))) a))) c)))
        (wshr 128 (wshl 128 (wadd (wshr 128 (wshl 128 (wmul v b))) a))))
      (wadd (wshr 128 (wmul v b))
        (wgt a (wshr 128 (wshl 128 (wadd (wshr 128 (wshl 128 (wmul v b))) a)))))
      = (v * b + a + c) / 2 ^ 128 := by
  have hx : v * b ≤ (2 ^ 128 - 1) * (2 ^ 128 - 1) := Nat.mul_le_mul (by omega) (by omega)
  rw [wmul_small (by omega)]
  simp only [wlow128]
  simp only [wshr128]
  generalize v * b = x at *
  refine ⟨by omega, ?_, ?_⟩
  · simp only [wadd]; omega
  · simp only [wlt, wgt]
    rw [wadd_small (a := x % 2 ^ 128) (by omega), wadd_small (b := c) (by omega)]
    split <;> split <;> (rw [wadd_small (a := x / 2 ^ 128) (by omega), wadd_small (by omega)]; omega)

/-- One round of `asm/bignum/addmul.asm:14-99`. -/
theorem addmul_body {w : World} {c la lb n v : Nat} (hc : w.ctx < 2 ^ 32) (hla : la + (n + 1) ≤ 2 ^ 32)
    (hlb : lb + (n + 1) ≤ 2 ^ 32) (ha : w.mem (base w + la) < 2 ^ 128) (hb : w.mem (base w + lb) < 2 ^ 128)
    (hcar : c < 2 ^ 128) (hv : v < 2 ^ 128) :
    exec P b_addmul_loop (c :: base w :: (n + 1) :: la :: lb :: v :: ret :: s) w =
      if n = 0 then
        exec P b_addmul_end ((v * w.mem (base w + lb) + w.mem (base w + la) + c) / 2 ^ 128 :: base w :: n ::
          (la + 1) :: (lb + 1) :: v :: ret :: s)
          (w.set (base w + la) ((v * w.mem (base w + lb) + w.mem (base w + la) + c) % 2 ^ 128))
      else .goto (P.addr "addmul_loop")
        ((v * w.mem (base w + lb) + w.mem (base w + la) + c) / 2 ^ 128 :: base w :: n ::
          (la + 1) :: (lb + 1) :: v :: ret :: s)
          (w.set (base w + la) ((v * w.mem (base w + lb) + w.mem (base w + la) + c) % 2 ^ 128)) := by
  obtain ⟨-, hw1, hw2⟩ := addmul_words ha hb hv hcar
  rw [b_addmul_loop]
  generalize b_addmul_end = e
  kexec [m_shr_const, m_shl_const, m_swap_mstore, m_increment, m_decrement, m_add_const, m_sub_const]
  rw [wadd_base' hc (by omega), exec_load hc (by omega)]
  kexec []
  rw [wadd_base' hc (by omega), exec_load hc (by omega)]
  kexec []
  rw [wadd_base' hc (by omega), exec_store hc (by omega)]
  kexec []
  rw [hw2, hw1, wsub_small (by omega) (by omega), wadd_small (by omega), wadd_small (by omega),
    Nat.add_comm 1 la, Nat.add_comm 1 lb]
  simp only [Nat.add_sub_cancel]

theorem addmul_step {B r c1 t N A D k p v a0 b0 c : Nat} (h0 : t = v * b0 + a0 + c) (h1 : r + B * c1 = t)
    (h2 : N + k * p = A + v * D + c1) :
    (r + B * N) + k * (p * B) = (a0 + B * A) + v * (b0 + B * D) + c := by
  subst h0
  have : B * (N + k * p) = B * (A + v * D + c1) := by rw [h2]
  linarith [this]

/-- `asm/bignum/addmul.asm:14-107`. -/
theorem run_addmul_loop (hP : P.Has bignumCode) {v : Nat} (hv : v < 2 ^ 128) :
    ∀ (n : Nat) (w : World) (c la lb : Nat), w.ctx < 2 ^ 32 → la + (n + 1) ≤ 2 ^ 32 → lb + (n + 1) ≤ 2 ^ 32 →
      Apart la (n + 1) lb (n + 1) → Small (limbs w la) (n + 1) → Small (limbs w lb) (n + 1) → c < 2 ^ 128 →
      ∃ c' w', Reaches P (exec P b_addmul_loop (c :: base w :: (n + 1) :: la :: lb :: v :: ret :: s) w)
          (.goto ret (c' :: s) w') ∧
        num (limbs w' la) (n + 1) + c' * (2 ^ 128) ^ (n + 1)
          = num (limbs w la) (n + 1) + v * num (limbs w lb) (n + 1) + c ∧
        c' < 2 ^ 128 ∧ Small (limbs w' la) (n + 1) ∧ Leaves w w' la (n + 1) ∧ w'.inp = w.inp := by
  intro n
  induction n with
  | zero =>
    intro w c la lb hc hla hlb hap hsa hsb hcar
    have ha : w.mem (base w + la) < 2 ^ 128 := hsa 0 (by omega)
    have hb : w.mem (base w + lb) < 2 ^ 128 := hsb 0 (by omega)
    obtain ⟨hw, -⟩ := addmul_words ha hb hv hcar
    rw [addmul_body hc hla hlb ha hb hcar hv, if_pos rfl, b_addmul_end]
    kexec []
    refine ⟨_, _, .refl _, ?_, hw, ?_, leaves_set' (by omega), rfl⟩
    · simp only [num, limbs, base, set_ctx, Nat.add_zero, set_same, Nat.mul_zero, zero_add, pow_one] at *
      generalize v * w.mem _ = x at *
      omega
    · intro i hi
      obtain rfl : i = 0 := by omega
      simp only [limbs, base, set_ctx, Nat.add_zero, set_same]; omega
  | succ n ih =>
    intro w c la lb hc hla hlb hap hsa hsb hcar
    have ha : w.mem (base w + la) < 2 ^ 128 := hsa 0 (by omega)
    have hb : w.mem (base w + lb) < 2 ^ 128 := hsb 0 (by omega)
    obtain ⟨hw, -⟩ := addmul_words ha hb hv hcar
    rw [addmul_body hc hla hlb ha hb hcar hv, if_neg (by omega)]
    have hap1 : Apart la 1 (la + 1) (n + 1) := .inl (by omega)
    have hap2 : Apart la 1 (lb + 1) (n + 1) := by simp only [Apart] at *; omega
    generalize ht : v * w.mem (base w + lb) + w.mem (base w + la) + c = t at *
    have hk := leaves_set' (w := w) (l := la) (n := 1) (v := t % 2 ^ 128) (by omega)
    obtain ⟨c', w', h1, h2, h3, h4, h5, h6⟩ := ih (w.set (base w + la) (t % 2 ^ 128))
      (t / 2 ^ 128) (la + 1) (lb + 1) hc (by omega) (by omega)
      (by simp only [Apart] at *; omega)
      (hk.small hap1 (small_succ.1 hsa).2) (hk.small hap2 (small_succ.1 hsb).2) hw
    refine ⟨c', w', ?_, ?_, h3, ?_, h5.step, h6⟩
    · enter hP in bignumCode
      exact h1
    · rw [hk.num_eq hap1, hk.num_eq hap2] at h2
      rw [num_succ w' la, num_succ w la, num_succ w lb, limbs_step h5, limbs_zero, limbs_zero,
        pow_succ (2 ^ 128) (n + 1)]
      exact addmul_step ht.symm (by omega) h2
    · refine small_succ.2 ⟨?_, h4⟩
      rw [limbs_step h5]; omega

/-- `asm/bignum/addmul.asm:5-116`: `a` becomes the low part of `a + b * v`, and the limb above it is
returned. -/
theorem run_addmul (hP : P.Has bignumCode) {w : World} {n la lb v : Nat} (hc : w.ctx < 2 ^ 32)
    (hla : la + n ≤ 2 ^ 32) (hlb : lb + n ≤ 2 ^ 32) (hap : Apart la n lb n) (hsa : Small (limbs w la) n)
    (hsb : Small (limbs w lb) n) (hv : v < 2 ^ 128) :
    ∃ c w', Reaches P (.goto (P.addr "addmul_bignum") (n :: la :: lb :: v :: ret :: s) w)
        (.goto ret (c :: s) w') ∧
      num (limbs w' la) n + c * (2 ^ 128) ^ n = num (limbs w la) n + v * num (limbs w lb) n ∧
      c < 2 ^ 128 ∧ Small (limbs w' la) n ∧ Leaves w w' la n ∧ w'.inp = w.inp := by
  match n with
  | 0 =>
    refine ⟨0, w, ?_, by simp [num], by omega, fun i hi => by omega, .refl .., rfl⟩
    enter hP in bignumCode
    rw [b_addmul_bignum]
    kexec [ne_eq, not_true, if_false]
    enter hP in bignumCode
    kexec [b_len_zero_addmul, m_pop4, rep]
    exact .refl _
  | n + 1 =>
    obtain ⟨c, w', h1, h2, h3⟩ := run_addmul_loop (ret := ret) (s := s) hP hv n w 0 la lb hc hla hlb hap hsa hsb (by omega)
    refine ⟨c, w', ?_, h2, h3⟩
    enter hP in bignumCode
    rw [b_addmul_bignum]
    generalize b_addmul_loop = t at *
    kexec [ne_eq, Nat.add_one_ne_zero, not_false_iff]
    rw [exec_general, general_base hc]
    kexec []
    exact h1

/-! ### Multiplication -/

theorem mul_step {B x0 V V' v A D N : Nat} (h1 : x0 + B * V' = V + v * A) (h2 : N = V' + A * D) :
    x0 + B * N = V + A * (v + B * D) := by
  subst h2; linarith [h1]

theorem num_snoc' (w : World) (l n : Nat) :
    num (limbs w l) (n + 1) = num (limbs w l) n + limbs w l n * (2 ^ 128) ^ n := num_snoc _ _

theorem small_snoc {f : Nat → Nat} {n : Nat} (h : Small f n) (hn : f n < 2 ^ 128) : Small f (n + 1) := by
  intro i hi
  rcases (by omega : i < n ∨ i = n) with hi | rfl
  · exact h i hi
  · exact hn

/-- One round of `asm/bignum/mul.asm:20-58`. -/
theorem mul_round (hP : P.Has bignumCode) {w : World} {len la n lb lo : Nat} (hla : la + len ≤ 2 ^ 32)
    (hc : w.ctx < 2 ^ 32) (hlb : lb + (n + 1) ≤ 2 ^ 32) (hlo : lo + (len + 1) ≤ 2 ^ 32)
    (hap1 : Apart lo (len + 1) la len) (hsa : Small (limbs w la) len)
    (hb : w.mem (base w + lb) < 2 ^ 128) (hso : Small (limbs w lo) len) :
    ∃ w', Reaches P (exec P b_mul_loop ((n + 1) :: base w :: len :: la :: lb :: lo :: ret :: s) w)
        (if n = 0 then .goto ret s w' else
          .goto (P.addr "mul_loop") (n :: base w :: len :: la :: (lb + 1) :: (lo + 1) :: ret :: s) w') ∧
      num (limbs w' lo) (len + 1)
        = num (limbs w lo) len + w.mem (base w + lb) * num (limbs w la) len ∧
      Small (limbs w' lo) (len + 1) ∧ Leaves w w' lo (len + 1) ∧ w'.inp = w.inp := by
  obtain ⟨c, w1, h1, h2, h3, h4, h5, h6⟩ := run_addmul (s := (n + 1) :: base w :: len :: la :: lb :: lo :: ret :: s)
    (ret := P.addr "mul_addmul_return")
    hP hc (la := lo) (lb := la) (n := len) (by omega) hla (by simp only [Apart] at *; omega) hso hsa hb
  have hk : Leaves w1 (w1.set (base w1 + (lo + len)) c) (lo + len) 1 := leaves_set' (by omega)
  have hb1 := h5.base_eq
  have hlast : limbs (w1.set (base w1 + (lo + len)) c) lo len = c := by
    rw [limbs, hk.base_eq, set_same]
  refine ⟨w1.set (base w1 + (lo + len)) c, ?_, ?_, ?_, ?_, h6⟩
  · rw [b_mul_loop]
    kexec []
    rw [wadd_base hc (by omega), exec_load hc (by omega)]
    kexec []
    refine h1.trans ?_
    enter hP in bignumCode
    rw [b_mul_addmul_return]
    generalize ht : b_mul_end = t
    kexec [m_swap_mstore, m_increment, m_decrement, m_add_const, m_sub_const]
    rw [wadd_small (a := len) (by omega), ← hb1, wadd_base (by rw [h5.1]; exact hc) (by omega), Nat.add_comm len lo,
      exec_store (by rw [h5.1]; exact hc) (by omega)]
    kexec []
    rw [wsub_small (by omega) (by omega), wadd_small (by omega), wadd_small (by omega), Nat.add_comm 1 lb,
      Nat.add_comm 1 lo, Nat.add_sub_cancel]
    subst ht
    split
    · kexec [b_mul_end, m_pop6, rep]
      exact .refl _
    · exact .refl _
  · rw [num_snoc', hlast, hk.num_eq (by simp only [Apart]; omega), h2]
  · exact small_snoc (hk.small (by simp only [Apart]; omega) h4) (by rw [hlast]; exact h3)
  · exact (h5.widen (by omega) (by omega)).trans (hk.widen (by omega) (by omega))

/-- `asm/bignum/mul.asm:20-64`: the cells of the output that have not been reached yet are
overwritten, whatever is in them. -/
theorem run_mul_loop (hP : P.Has bignumCode) {len la : Nat} (hla : la + len ≤ 2 ^ 32) :
    ∀ (n : Nat) (w : World) (lb lo : Nat), w.ctx < 2 ^ 32 → lb + (n + 1) ≤ 2 ^ 32 →
      lo + (len + (n + 1)) ≤ 2 ^ 32 →
      Apart lo (len + (n + 1)) la len → Apart lo (len + (n + 1)) lb (n + 1) →
      Small (limbs w la) len → Small (limbs w lb) (n + 1) → Small (limbs w lo) len →
      ∃ w', Reaches P (exec P b_mul_loop ((n + 1) :: base w :: len :: la :: lb :: lo :: ret :: s) w)
          (.goto ret s w') ∧
        num (limbs w' lo) (len + (n + 1))
          = num (limbs w lo) len + num (limbs w la) len * num (limbs w lb) (n + 1) ∧
        Small (limbs w' lo) (len + (n + 1)) ∧ Leaves w w' lo (len + (n + 1)) ∧ w'.inp = w.inp := by
  intro n
  induction n with
  | zero =>
    intro w lb lo hc hlb hlo hap1 hap2 hsa hsb hso
    obtain ⟨w', h1, h2, h3⟩ := mul_round (ret := ret) (s := s) hP hla hc hlb hlo hap1 hsa (hsb 0 (by omega)) hso
    rw [if_pos rfl] at h1
    refine ⟨w', h1, ?_, h3⟩
    rw [show len + (0 + 1) = len + 1 from rfl, h2]
    simp only [num, limbs_zero, Nat.mul_zero, Nat.add_zero]
    rw [Nat.mul_comm]
  | succ n ih =>
    intro w lb lo hc hlb hlo hap1 hap2 hsa hsb hso
    obtain ⟨w1, h1, h2, h3, h4, h5⟩ := mul_round (ret := ret) (s := s) hP hla hc hlb (by omega)
      (by simp only [Apart] at *; omega) hsa (hsb 0 (by omega)) hso
    rw [if_neg (by omega)] at h1
    have hb1 := h4.base_eq
    have hA : Apart lo (len + 1) la len := by simp only [Apart] at *; omega
    have hB : Apart lo (len + 1) (lb + 1) (n + 1) := by simp only [Apart] at *; omega
    have hs1 := (small_succ.1 hsb).2
    obtain ⟨w2, g1, g2, g3, g4, g5⟩ := ih w1 (lb + 1) (lo + 1) (by rw [h4.1]; exact hc) (by omega) (by omega)
      (by simp only [Apart] at *; omega) (by simp only [Apart] at *; omega) (h4.small hA hsa)
      (h4.small hB hs1) (small_succ.1 h3).2
    have hk : Leaves w w2 lo (len + (n + 1 + 1)) :=
      (h4.widen (by omega) (by omega)).trans (g4.widen (by omega) (by omega))
    have h0 : limbs w2 lo 0 = limbs w1 lo 0 := by
      rw [limbs, limbs, g4.base_eq]; exact g4.2 _ (.inl (by omega))
    refine ⟨w2, h1.trans ?_, ?_, ?_, hk, g5.trans h5⟩
    · enter hP in bignumCode
      rw [← hb1]; exact g1
    · rw [h4.num_eq hA, h4.num_eq hB] at g2
      rw [num_succ w1] at h2
      rw [show len + (n + 1 + 1) = len + (n + 1) + 1 by omega, num_succ w2, num_succ w lb, h0]
      exact mul_step h2 g2
    · rw [show len + (n + 1 + 1) = len + (n + 1) + 1 by omega]
      refine small_succ.2 ⟨?_, g3⟩
      rw [h0]; exact (small_succ.1 h3).1

/-- `asm/bignum/mul.asm:9-70`: with zeroes in the first `len` cells of the output, the output becomes
the product. -/
theorem run_mul (hP : P.Has bignumCode) {w : World} {n la lb lo : Nat} (hc : w.ctx < 2 ^ 32)
    (hla : la + n ≤ 2 ^ 32) (hlb : lb + n ≤ 2 ^ 32) (hlo : lo + 2 * n ≤ 2 ^ 32)
    (hap1 : Apart lo (2 * n) la n) (hap2 : Apart lo (2 * n) lb n)
    (hsa : Small (limbs w la) n) (hsb : Small (limbs w lb) n) (hso : ∀ i < n, limbs w lo i = 0) :
    ∃ w', Reaches P (.goto (P.addr "mul_bignum") (n :: la :: lb :: lo :: ret :: s) w) (.goto ret s w') ∧
      num (limbs w' lo) (2 * n) = num (limbs w la) n * num (limbs w lb) n ∧
      Small (limbs w' lo) (2 * n) ∧ Leaves w w' lo (2 * n) ∧ w'.inp = w.inp := by
  match n with
  | 0 =>
    refine ⟨w, ?_, by simp [num], fun i hi => by omega, .refl .., rfl⟩
    enter hP in bignumCode
    rw [b_mul_bignum]
    kexec [ne_eq, not_true, if_false]
    enter hP in bignumCode
    kexec [b_len_zero_mul, m_pop4, rep]
    exact .refl _
  | n + 1 =>
    have hz : num (limbs w lo) (n + 1) = 0 := by
      rw [num_congr (g := limb 0) (fun i hi => by rw [hso i hi]; simp [limb])]
      exact num_limb (by positivity)
    rw [Nat.two_mul] at *
    obtain ⟨w', h1, h2, h3⟩ := run_mul_loop (ret := ret) (s := s) hP hla n w lb lo hc hlb hlo hap1 hap2 hsa hsb
      (fun i hi => by rw [hso i hi]; omega)
    refine ⟨w', ?_, by rw [h2, hz, Nat.zero_add], h3⟩
    enter hP in bignumCode
    rw [b_mul_bignum]
    generalize b_mul_loop = t at *
    kexec [ne_eq, Nat.add_one_ne_zero, not_false_iff]
    rw [exec_general, general_base hc]
    kexec []
    exact h1

end Verif.Kasm
