import Verif.Kasm.Bignum

/-! Comparisons and the shift of the kernel's arithmetic on integers of 128-bit limbs,
`asm/bignum/{cmp,iszero,isone,shr}.asm`. -/

namespace Verif.Kasm

variable {P : Prog} {ret : Nat} {s : List Nat}

/-! ### Comparison -/

theorem num_top {f g : Nat → Nat} {n : Nat} (hf : Small f n) (h : f n < g n) :
    num f (n + 1) < num g (n + 1) := by
  rw [num_snoc, num_snoc]
  have h1 := num_lt hf
  have h2 : (f n + 1) * (2 ^ 128) ^ n ≤ g n * (2 ^ 128) ^ n := Nat.mul_le_mul_right _ h
  rw [Nat.add_mul, Nat.one_mul] at h2
  omega

/-- `asm/bignum/cmp.asm:4-5`: 1 if `a > b`, 0 if `a = b`, and -1 if `a < b`. -/
def cmpWord (a b : Nat) : Nat := if b < a then 1 else if a < b then 2 ^ 256 - 1 else 0

theorem cmpWord_gt {a b : Nat} (h : b < a) : cmpWord a b = 1 := by simp only [cmpWord]; rw [if_pos h]
theorem cmpWord_lt {a b : Nat} (h : a < b) : cmpWord a b = 2 ^ 256 - 1 := by
  simp only [cmpWord]; rw [if_neg (by omega), if_pos h]
theorem cmpWord_eq {a b : Nat} (h : a = b) : cmpWord a b = 0 := by
  simp only [cmpWord]; rw [if_neg (by omega), if_neg (by omega)]

/-- One round of `asm/bignum/cmp.asm:35-69`. -/
theorem cmp_body {w : World} {i a b : Nat} (hc : w.ctx < 2 ^ 32) (ha : a < 2 ^ 32) (hb : b < 2 ^ 32) :
    exec P b_ge_loop (i :: base w :: a :: b :: ret :: s) w =
      if w.mem (base w + a) ≤ w.mem (base w + b) then
        if w.mem (base w + b) ≤ w.mem (base w + a) then
          if i ≠ 0 then
            .goto (P.addr "ge_loop") (wsub i 1 :: base w :: wsub a 1 :: wsub b 1 :: ret :: s) w
          else .goto (P.addr "equal") (i :: base w :: a :: b :: ret :: s) w
        else .goto (P.addr "less") (i :: base w :: a :: b :: ret :: s) w
      else .goto (P.addr "greater")
        (w.mem (base w + a) :: w.mem (base w + b) :: i :: base w :: a :: b :: ret :: s) w := by
  rw [b_ge_loop]
  kexec [m_decrement, m_sub_const]
  rw [wadd_base hc (by omega), exec_load hc (by omega)]
  kexec []
  rw [wadd_base hc (by omega), exec_load hc (by omega)]
  kexec []

/-- The ends of `asm/bignum/cmp.asm:70-94`. -/
theorem run_cmp_ends (hP : P.Has bignumCode) {w : World} {a b c d e f : Nat} :
    Reaches P (.goto (P.addr "equal") (a :: b :: c :: d :: ret :: s) w) (.goto ret (0 :: s) w) ∧
    Reaches P (.goto (P.addr "less") (a :: b :: c :: d :: ret :: s) w) (.goto ret ((2 ^ 256 - 1) :: s) w) ∧
    Reaches P (.goto (P.addr "greater") (a :: b :: c :: d :: e :: f :: ret :: s) w) (.goto ret (1 :: s) w) := by
  refine ⟨?_, ?_, ?_⟩
  · enter hP in bignumCode
    kexec [b_equal, m_pop4, rep]; exact .refl _
  · enter hP in bignumCode
    kexec [b_less, m_pop4, rep]; exact .refl _
  · enter hP in bignumCode
    kexec [b_greater, m_pop6, rep]; exact .refl _

/-- `asm/bignum/cmp.asm:35-94`. -/
theorem run_cmp_loop (hP : P.Has bignumCode) {w : World} {la lb : Nat} (hc : w.ctx < 2 ^ 32) :
    ∀ i, la + i < 2 ^ 32 → lb + i < 2 ^ 32 → Small (limbs w la) (i + 1) → Small (limbs w lb) (i + 1) →
      Reaches P (exec P b_ge_loop (i :: base w :: (la + i) :: (lb + i) :: ret :: s) w)
        (.goto ret (cmpWord (num (limbs w la) (i + 1)) (num (limbs w lb) (i + 1)) :: s) w) := by
  intro i
  induction i with
  | zero =>
    intro hla hlb hsa hsb
    rw [cmp_body hc hla hlb]
    have e1 : num (limbs w la) (0 + 1) = w.mem (base w + (la + 0)) := rfl
    have e2 : num (limbs w lb) (0 + 1) = w.mem (base w + (lb + 0)) := rfl
    rw [e1, e2]
    simp only [ne_eq, not_true, if_false]
    by_cases h1 : w.mem (base w + (la + 0)) ≤ w.mem (base w + (lb + 0))
    · rw [if_pos h1]
      by_cases h2 : w.mem (base w + (lb + 0)) ≤ w.mem (base w + (la + 0))
      · rw [if_pos h2, cmpWord_eq (by omega)]
        exact (run_cmp_ends (e := 0) (f := 0) hP).1
      · rw [if_neg h2, cmpWord_lt (by omega)]
        exact (run_cmp_ends (e := 0) (f := 0) hP).2.1
    · rw [if_neg h1, cmpWord_gt (by omega)]
      exact (run_cmp_ends hP).2.2
  | succ i ih =>
    intro hla hlb hsa hsb
    rw [cmp_body hc hla hlb]
    have t1 : limbs w la (i + 1) = w.mem (base w + (la + (i + 1))) := rfl
    have t2 : limbs w lb (i + 1) = w.mem (base w + (lb + (i + 1))) := rfl
    by_cases h1 : w.mem (base w + (la + (i + 1))) ≤ w.mem (base w + (lb + (i + 1)))
    · rw [if_pos h1]
      by_cases h2 : w.mem (base w + (lb + (i + 1))) ≤ w.mem (base w + (la + (i + 1)))
      · rw [if_pos h2, if_pos (by omega), wsub_small (by omega) (by omega), wsub_small (by omega) (by omega),
          wsub_small (by omega) (by omega)]
        have := ih (by omega) (by omega) (hsa.le (by omega)) (hsb.le (by omega))
        rw [num_snoc _ (i + 1), num_snoc _ (i + 1), show limbs w lb (i + 1) = limbs w la (i + 1) by omega]
        have hw : ∀ a b c, cmpWord (a + c) (b + c) = cmpWord a b := by
          intro a b c; simp only [cmpWord, Nat.add_lt_add_iff_right]
        rw [hw]
        enter hP in bignumCode
        exact this
      · have := num_top (hsa.le (Nat.le_add_right (i + 1) 1)) (g := limbs w lb) (by omega)
        rw [if_neg h2, cmpWord_lt this]
        exact (run_cmp_ends (e := 0) (f := 0) hP).2.1
    · have := num_top (hsb.le (Nat.le_add_right (i + 1) 1)) (g := limbs w la) (by omega)
      rw [if_neg h1, cmpWord_gt this]
      exact (run_cmp_ends hP).2.2

/-- `asm/bignum/cmp.asm:6-94`. -/
theorem run_cmp (hP : P.Has bignumCode) {w : World} {n la lb : Nat} (hc : w.ctx < 2 ^ 32)
    (hla : la + n ≤ 2 ^ 32) (hlb : lb + n ≤ 2 ^ 32) (hsa : Small (limbs w la) n) (hsb : Small (limbs w lb) n) :
    Reaches P (.goto (P.addr "cmp_bignum") (n :: la :: lb :: ret :: s) w)
      (.goto ret (cmpWord (num (limbs w la) n) (num (limbs w lb) n) :: s) w) := by
  enter hP in bignumCode
  rw [b_cmp_bignum, exec_general, general_base hc]
  match n with
  | 0 =>
    kexec [ne_eq, not_true, if_false]
    exact (run_cmp_ends (e := 0) (f := 0) hP).1
  | n + 1 =>
    have h := run_cmp_loop (ret := ret) (s := s) hP hc n (by omega) (by omega) hsa hsb
    generalize b_ge_loop = t at *
    kexec [ne_eq, Nat.add_one_ne_zero, not_false_iff, m_decrement, m_sub_const]
    rw [wsub_small (by omega) (by omega), Nat.add_sub_cancel, wadd_small (by omega), wadd_small (by omega),
      Nat.add_comm n la, Nat.add_comm n lb]
    exact h

/-! ### Zero and one -/

/-- Access to the general segment, `asm/memory/core.asm:121-125`. -/
theorem exec_load_general {cd : List I} {w : World} {l : Nat} (hc : w.ctx < 2 ^ 32) (hl : l < 2 ^ 32) :
    exec P (m_mload_current_general ++ cd) (l :: s) w = exec P cd (w.mem (base w + l) :: s) w := by
  kexec [m_mload_current_general, m_mload_current, m_build_address]
  rw [general_base hc, wadd_base hc hl, exec_load hc hl]

theorem exec_store_general {cd : List I} {w : World} {l v : Nat} (hc : w.ctx < 2 ^ 32) (hl : l < 2 ^ 32) :
    exec P (m_mstore_current_general0 ++ cd) (l :: v :: s) w = exec P cd s (w.set (base w + l) v) := by
  kexec [m_mstore_current_general0, m_build_current_general_address, m_build_address]
  rw [general_base hc, wadd_base hc hl, exec_store hc hl]

/-- `asm/bignum/iszero.asm:16-40`. -/
theorem run_iszero_loop (hP : P.Has bignumCode) {w : World} (hc : w.ctx < 2 ^ 32) :
    ∀ n l, l + (n + 1) ≤ 2 ^ 32 →
      Reaches P (exec P b_iszero_loop (l :: (l + (n + 1)) :: ret :: s) w)
        (.goto ret ((if num (limbs w l) (n + 1) = 0 then 1 else 0) :: s) w) := by
  intro n
  induction n with
  | zero =>
    intro l hl
    rw [b_iszero_loop]
    kexec []
    rw [exec_load_general hc (by omega)]
    kexec [m_increment, m_add_const, ne_eq]
    rw [wadd_small (by omega), Nat.add_comm 1 l, show num (limbs w l) (0 + 1) = w.mem (base w + l) from rfl]
    simp only [Nat.zero_add, not_true, if_false]
    split
    · enter hP in bignumCode
      kexec [b_eqzero_iszero]; exact .refl _
    · enter hP in bignumCode
      kexec [b_neqzero]; exact .refl _
  | succ n ih =>
    intro l hl
    rw [b_iszero_loop]
    kexec []
    rw [exec_load_general hc (by omega)]
    kexec [m_increment, m_add_const, ne_eq]
    rw [wadd_small (by omega), Nat.add_comm 1 l, if_pos (c := ¬ l + 1 = l + (n + 1 + 1)) (by omega), num_succ, limbs_zero]
    have h := ih (l + 1) (by omega)
    split
    · rename_i h0
      rw [h0]
      simp only [show ∀ x, (0 + 2 ^ 128 * x = 0) = (x = 0) by intro x; simp]
      enter hP in bignumCode
      rw [show l + (n + 1 + 1) = l + 1 + (n + 1) by omega]
      exact h
    · rename_i h0
      rw [if_neg (by omega)]
      enter hP in bignumCode
      kexec [b_neqzero]; exact .refl _

/-- `asm/bignum/iszero.asm:4-40`: whether the number is zero. -/
theorem run_iszero (hP : P.Has bignumCode) {w : World} {n l : Nat} (hc : w.ctx < 2 ^ 32)
    (hl : l + n ≤ 2 ^ 32) :
    Reaches P (.goto (P.addr "iszero_bignum") (n :: l :: ret :: s) w)
      (.goto ret ((if num (limbs w l) n = 0 then 1 else 0) :: s) w) := by
  enter hP in bignumCode
  rw [b_iszero_bignum]
  match n with
  | 0 =>
    kexec [ne_eq, not_true, if_false]
    enter hP in bignumCode
    kexec [b_eqzero_iszero, num]; exact .refl _
  | n + 1 =>
    have h := run_iszero_loop (ret := ret) (s := s) hP hc n l hl
    generalize b_iszero_loop = t at *
    kexec [ne_eq, Nat.add_one_ne_zero, not_false_iff]
    rw [wadd_small (by omega)]
    exact h

/-- `asm/bignum/isone.asm:4-34`: whether the number is one. -/
theorem run_isone (hP : P.Has bignumCode) {w : World} {n l : Nat} (hc : w.ctx < 2 ^ 32)
    (hl : l + n ≤ 2 ^ 32) :
    Reaches P (.goto (P.addr "isone_bignum") (n :: l :: ret :: s) w)
      (.goto ret ((if num (limbs w l) n = 1 then 1 else 0) :: s) w) := by
  enter hP in bignumCode
  rw [b_isone_bignum]
  match n with
  | 0 =>
    kexec [ne_eq, not_true, if_false]
    enter hP in bignumCode
    kexec [b_eqzero_isone]
    exact .refl _
  | n + 1 =>
    kexec [ne_eq, Nat.add_one_ne_zero, not_false_iff]
    rw [exec_load_general hc (by omega)]
    kexec [m_eq_const, ne_eq]
    rw [num_succ, limbs_zero]
    split
    · rename_i h
      rw [if_neg (by omega)]; exact .refl _
    · rename_i h
      have h : w.mem (base w + l) = 1 := by omega
      rw [h]
      simp only [show ∀ x, (1 + 2 ^ 128 * x = 1) = (x = 0) by intro x; simp]
      enter hP in bignumCode
      kexec [b_starts_with_one, m_increment, m_decrement, m_add_const, m_sub_const]
      rw [wsub_small (by omega) (by omega), wadd_small (by omega), Nat.add_sub_cancel, Nat.add_comm 1 l]
      exact run_iszero hP hc (by omega)

/-! ### Halving -/

/-- One round of `asm/bignum/shr.asm:25-62`. -/
theorem shr_body {w : World} {i l c : Nat} (hc : w.ctx < 2 ^ 32) (hl : l + i < 2 ^ 32) (hcar : c ≤ 1)
    (ha : w.mem (base w + (l + i)) < 2 ^ 128) :
    exec P b_shr_loop ((l + i) :: base w :: c :: l :: ret :: s) w =
      if i ≠ 0 then
        .goto (P.addr "shr_loop") (wsub (l + i) 1 :: base w :: w.mem (base w + (l + i)) % 2 :: l :: ret :: s)
          (w.set (base w + (l + i)) (w.mem (base w + (l + i)) / 2 + c * 2 ^ 127))
      else exec P b_shr_end (wsub (l + i) 1 :: base w :: w.mem (base w + (l + i)) % 2 :: l :: ret :: s)
          (w.set (base w + (l + i)) (w.mem (base w + (l + i)) / 2 + c * 2 ^ 127)) := by
  rw [b_shr_loop]
  generalize b_shr_end = t
  kexec []
  rw [wadd_base hc hl, exec_load hc hl]
  kexec [m_shr_const, m_mod_const, m_shl_const, m_swap_mstore]
  rw [wadd_base hc hl, exec_store hc hl]
  kexec []
  have h1 : wadd (wshl 127 c) (wshr 1 (w.mem (base w + (l + i)))) = w.mem (base w + (l + i)) / 2 + c * 2 ^ 127 := by
    simp only [wshl, wshr]
    rw [if_neg (by omega), if_neg (by omega), wadd_small (by omega)]; omega
  have h2 : wmod (w.mem (base w + (l + i))) 2 = w.mem (base w + (l + i)) % 2 := by
    simp only [wmod]; rw [if_neg (by omega)]
  rw [h1, h2]
  by_cases h : i = 0
  · subst h; simp
  · simp [h]

theorem half_step {X Y Z c p q : Nat} (hY : Y = X / 2) (hp : 2 ^ 128 * p = q) (f : Nat)
    (hX : X = Z + f % 2 * p) :
    Y + (f / 2 + c * 2 ^ 127) * p = (Z + f * p + c * q) / 2 := by
  subst hY hX hp
  have h : Z + f * p + c * (2 ^ 128 * p) = Z + f % 2 * p + (f / 2 + c * 2 ^ 127) * p * 2 := by
    have hf : f = f % 2 + 2 * (f / 2) := by omega
    generalize f % 2 = g at *
    generalize f / 2 = h at *
    subst hf
    ring
  rw [h, Nat.add_mul_div_right _ _ (by omega)]

/-- `asm/bignum/shr.asm:25-68`. -/
theorem run_shr_loop (hP : P.Has bignumCode) {l : Nat} :
    ∀ (i : Nat) (w : World) (c : Nat), w.ctx < 2 ^ 32 → l + i < 2 ^ 32 → c ≤ 1 → Small (limbs w l) (i + 1) →
      ∃ w', Reaches P (exec P b_shr_loop ((l + i) :: base w :: c :: l :: ret :: s) w) (.goto ret s w') ∧
        num (limbs w' l) (i + 1) = (num (limbs w l) (i + 1) + c * (2 ^ 128) ^ (i + 1)) / 2 ∧
        Small (limbs w' l) (i + 1) ∧ Leaves w w' l (i + 1) ∧ w'.inp = w.inp := by
  intro i
  induction i with
  | zero =>
    intro w c hc hl hcar hs
    have h0 : w.mem (base w + (l + 0)) < 2 ^ 128 := hs 0 (by omega)
    rw [shr_body hc hl hcar h0, if_neg (by omega)]
    have hv : limbs (w.set (base w + (l + 0)) (w.mem (base w + (l + 0)) / 2 + c * 2 ^ 127)) l 0
        = w.mem (base w + (l + 0)) / 2 + c * 2 ^ 127 := set_same
    have hk : Leaves w (w.set (base w + (l + 0)) (w.mem (base w + (l + 0)) / 2 + c * 2 ^ 127)) l (0 + 1) :=
      leaves_set (by omega)
    have hin : (w.set (base w + (l + 0)) (w.mem (base w + (l + 0)) / 2 + c * 2 ^ 127)).inp = w.inp := rfl
    have hw : limbs w l 0 = w.mem (base w + (l + 0)) := rfl
    generalize w.set (base w + (l + 0)) (w.mem (base w + (l + 0)) / 2 + c * 2 ^ 127) = w1 at *
    refine ⟨w1, ?_, ?_, ?_, hk, hin⟩
    · kexec [b_shr_end, m_pop4, rep]
      exact .refl _
    · rw [num_snoc', num_snoc', hv, hw, Nat.zero_add, pow_one, num, num, Nat.pow_zero]
      omega
    · intro j hj
      obtain rfl : j = 0 := by omega
      rw [hv]; omega
  | succ i ih =>
    intro w c hc hl hcar hs
    have h0 : w.mem (base w + (l + (i + 1))) < 2 ^ 128 := hs (i + 1) (by omega)
    rw [shr_body hc hl hcar h0, if_pos (by omega), wsub_small (by omega) (by omega)]
    have hk : Leaves w (w.set (base w + (l + (i + 1))) (w.mem (base w + (l + (i + 1))) / 2 + c * 2 ^ 127))
      (l + (i + 1)) 1 := leaves_set' (by omega)
    have ht : limbs (w.set (base w + (l + (i + 1))) (w.mem (base w + (l + (i + 1))) / 2 + c * 2 ^ 127)) l (i + 1)
        = w.mem (base w + (l + (i + 1))) / 2 + c * 2 ^ 127 := by
      simp only [limbs]; exact set_same
    have hap : Apart (l + (i + 1)) 1 l (i + 1) := .inr (by omega)
    have hin : (w.set (base w + (l + (i + 1))) (w.mem (base w + (l + (i + 1))) / 2 + c * 2 ^ 127)).inp = w.inp := rfl
    generalize w.set (base w + (l + (i + 1))) (w.mem (base w + (l + (i + 1))) / 2 + c * 2 ^ 127) = w1 at *
    obtain ⟨w', h1, h2, h3, h4, h5⟩ := ih w1 (w.mem (base w + (l + (i + 1))) % 2)
      (by rw [hk.1]; exact hc) (by omega) (by omega) (hk.small hap (hs.le (by omega)))
    have hb1 := hk.base_eq
    have hl' : limbs w' l (i + 1) = w.mem (base w + (l + (i + 1))) / 2 + c * 2 ^ 127 := by
      rw [← ht, limbs, limbs, h4.base_eq]; exact h4.2 _ (.inr (by omega))
    refine ⟨w', ?_, ?_, ?_, ?_, h5.trans hin⟩
    · enter hP in bignumCode
      rw [← hb1, show l + (i + 1) - 1 = l + i by omega, hb1]
      rw [hb1] at h1
      exact h1
    · rw [num_snoc' w' l (i + 1), num_snoc' w l (i + 1), hl']
      rw [hk.num_eq hap] at h2
      have hlw : limbs w l (i + 1) = w.mem (base w + (l + (i + 1))) := rfl
      have hq : 2 ^ 128 * (2 ^ 128) ^ (i + 1) = (2 ^ 128) ^ (i + 1 + 1) := by
        rw [pow_succ (2 ^ 128) (i + 1), Nat.mul_comm]
      rw [hlw, ← hq]
      generalize (2 ^ 128) ^ (i + 1) = p at *
      exact half_step h2 rfl _ rfl
    · exact small_snoc h3 (by rw [hl']; omega)
    · exact (hk.widen (by omega) (by omega)).trans (h4.widen (by omega) (by omega))

/-- `asm/bignum/shr.asm:6-74`: the number is halved, rounding down. -/
theorem run_shr (hP : P.Has bignumCode) {w : World} {n l : Nat} (hc : w.ctx < 2 ^ 32)
    (hl : l + n ≤ 2 ^ 32) (hs : Small (limbs w l) n) :
    ∃ w', Reaches P (.goto (P.addr "shr_bignum") (n :: l :: ret :: s) w) (.goto ret s w') ∧
      num (limbs w' l) n = num (limbs w l) n / 2 ∧
      Small (limbs w' l) n ∧ Leaves w w' l n ∧ w'.inp = w.inp := by
  match n with
  | 0 =>
    refine ⟨w, ?_, by simp [num], fun i hi => by omega, .refl .., rfl⟩
    enter hP in bignumCode
    rw [b_shr_bignum]
    kexec [ne_eq, not_true, if_false]
    enter hP in bignumCode
    kexec [b_len_zero_shr, m_pop2, rep]
    exact .refl _
  | n + 1 =>
    obtain ⟨w', h1, h2, h3⟩ := run_shr_loop (ret := ret) (s := s) hP n w 0 hc (by omega) (by omega) hs
    refine ⟨w', ?_, by rw [h2, Nat.zero_mul, Nat.add_zero], h3⟩
    enter hP in bignumCode
    rw [b_shr_bignum]
    generalize b_shr_loop = t at *
    kexec [ne_eq, Nat.add_one_ne_zero, not_false_iff, m_decrement, m_sub_const]
    rw [exec_general, general_base hc, wadd_small (by omega), wsub_small (by omega) (by omega),
      show l + (n + 1) - 1 = l + n by omega]
    kexec []
    exact h1

end Verif.Kasm
