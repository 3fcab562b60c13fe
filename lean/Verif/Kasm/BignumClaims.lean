import Verif.Kasm.Modmul
import Verif.Kasm.ListClaims
import Mathlib.Data.Nat.ModEq
import Mathlib.Data.Nat.Prime.Basic

/-! Properties C108 and C109: the kernel's arithmetic on integers of any length, which its modular
exponentiation is made of. -/

namespace Verif.Kasm

variable {P : Prog} {w : World} {ret n la lb lm lo a b m : Nat} {s : List Nat}

/-! ### Numbers in memory -/

/-- The `n` cells from offset `l` of the general segment (segment 7 of the current context) on hold `x`,
in base `2^128`, the lowest digit first (`asm/bignum/add.asm:1-3`). -/
def Holds (w : World) (l n x : Nat) : Prop :=
  x < (2 ^ 128) ^ n ∧
    ∀ i < n, w.mem (w.ctx * 2 ^ 64 + 7 * 2 ^ 32 + (l + i)) = x / (2 ^ 128) ^ i % 2 ^ 128

/-- Nothing but the `n` cells from offset `l` of the general segment on has changed, and no input of the
prover has been taken. -/
def Elsewhere (w w' : World) (l n : Nat) : Prop :=
  w'.ctx = w.ctx ∧ w'.inp = w.inp ∧
    ∀ a, ¬ (w.ctx * 2 ^ 64 + 7 * 2 ^ 32 + l ≤ a ∧ a < w.ctx * 2 ^ 64 + 7 * 2 ^ 32 + (l + n)) →
      w'.mem a = w.mem a

theorem Holds.iff {l x : Nat} : Holds w l n x ↔ Small (limbs w l) n ∧ num (limbs w l) n = x := by
  constructor
  · rintro ⟨h1, h2⟩
    have h3 : ∀ i < n, limbs w l i = limb x i := h2
    exact ⟨fun i hi => by rw [h3 i hi]; exact limb_small x n i hi, (num_congr h3).trans (num_limb h1)⟩
  · rintro ⟨h1, rfl⟩
    exact ⟨num_lt h1, num_inj h1 (limb_small _ n) (num_limb (num_lt h1)).symm⟩

theorem Leaves.elsewhere {w' : World} {l : Nat} (h : Leaves w w' l n) (hi : w'.inp = w.inp) :
    Elsewhere w w' l n :=
  ⟨h.1, hi, fun a ha => h.2 a (by simp only [base]; omega)⟩

/-! ### C108 -/

/-- C108, `add_bignum`: adds `b` to `a` in place and returns the carry, for operands of any length. -/
theorem C108_add (hP : P.Has bignumCode) (hc : w.ctx < 2 ^ 32) (hla : la + n ≤ 2 ^ 32) (hlb : lb + n ≤ 2 ^ 32)
    (hap : Apart la n lb n) (ha : Holds w la n a) (hb : Holds w lb n b) :
    ∃ w', Reaches P (.goto (P.addr "add_bignum") (n :: la :: lb :: ret :: s) w)
        (.goto ret ((a + b) / (2 ^ 128) ^ n :: s) w') ∧
      Holds w' la n ((a + b) % (2 ^ 128) ^ n) ∧ Elsewhere w w' la n := by
  obtain ⟨sa, rfl⟩ := Holds.iff.1 ha
  obtain ⟨sb, rfl⟩ := Holds.iff.1 hb
  obtain ⟨c, w', r, v, -, sm, k, i⟩ := run_add (ret := ret) (s := s) hP hc hla hlb hap sa sb
  have hlt := num_lt sm
  refine ⟨w', ?_, Holds.iff.2 ⟨sm, ?_⟩, k.elsewhere i⟩
  · rw [← v, Nat.add_mul_div_right _ _ (by positivity), Nat.div_eq_of_lt hlt, Nat.zero_add]; exact r
  · rw [← v, Nat.add_mul_mod_self_right, Nat.mod_eq_of_lt hlt]

/-- C108, `addmul_bignum`: adds `v` times `b` to `a` in place and returns the carry. -/
theorem C108_addmul {v : Nat} (hP : P.Has bignumCode) (hc : w.ctx < 2 ^ 32) (hla : la + n ≤ 2 ^ 32)
    (hlb : lb + n ≤ 2 ^ 32) (hap : Apart la n lb n) (ha : Holds w la n a) (hb : Holds w lb n b) (hv : v < 2 ^ 128) :
    ∃ w', Reaches P (.goto (P.addr "addmul_bignum") (n :: la :: lb :: v :: ret :: s) w)
        (.goto ret ((a + v * b) / (2 ^ 128) ^ n :: s) w') ∧
      Holds w' la n ((a + v * b) % (2 ^ 128) ^ n) ∧ Elsewhere w w' la n := by
  obtain ⟨sa, rfl⟩ := Holds.iff.1 ha
  obtain ⟨sb, rfl⟩ := Holds.iff.1 hb
  obtain ⟨c, w', r, e, -, sm, k, i⟩ := run_addmul (ret := ret) (s := s) hP hc hla hlb hap sa sb hv
  have hlt := num_lt sm
  refine ⟨w', ?_, Holds.iff.2 ⟨sm, ?_⟩, k.elsewhere i⟩
  · rw [← e, Nat.add_mul_div_right _ _ (by positivity), Nat.div_eq_of_lt hlt, Nat.zero_add]; exact r
  · rw [← e, Nat.add_mul_mod_self_right, Nat.mod_eq_of_lt hlt]

/-- C108, `mul_bignum`: the product, of double length; the lower half of the place for it has to be
zero before. `a` and `b` may be the same. -/
theorem C108_mul (hP : P.Has bignumCode) (hc : w.ctx < 2 ^ 32) (hla : la + n ≤ 2 ^ 32) (hlb : lb + n ≤ 2 ^ 32)
    (hlo : lo + 2 * n ≤ 2 ^ 32) (h1 : Apart lo (2 * n) la n) (h2 : Apart lo (2 * n) lb n)
    (ha : Holds w la n a) (hb : Holds w lb n b) (ho : Holds w lo n 0) :
    ∃ w', Reaches P (.goto (P.addr "mul_bignum") (n :: la :: lb :: lo :: ret :: s) w) (.goto ret s w') ∧
      Holds w' lo (2 * n) (a * b) ∧ Elsewhere w w' lo (2 * n) := by
  obtain ⟨sa, rfl⟩ := Holds.iff.1 ha
  obtain ⟨sb, rfl⟩ := Holds.iff.1 hb
  obtain ⟨w', r, v, sm, k, i⟩ := run_mul (ret := ret) (s := s) hP hc hla hlb hlo h1 h2 sa sb
    fun i hi => by have := ho.2 i hi; rw [Nat.zero_div, Nat.zero_mod] at this; exact this
  exact ⟨w', r, Holds.iff.2 ⟨sm, v⟩, k.elsewhere i⟩

/-- C108, `cmp_bignum`: 1, 0 or -1 for above, equal and below. Nothing is changed. -/
theorem C108_compare (hP : P.Has bignumCode) (hc : w.ctx < 2 ^ 32) (hla : la + n ≤ 2 ^ 32)
    (hlb : lb + n ≤ 2 ^ 32) (ha : Holds w la n a) (hb : Holds w lb n b) :
    Reaches P (.goto (P.addr "cmp_bignum") (n :: la :: lb :: ret :: s) w)
      (.goto ret ((if b < a then 1 else if a < b then 2 ^ 256 - 1 else 0) :: s) w) := by
  obtain ⟨sa, rfl⟩ := Holds.iff.1 ha
  obtain ⟨sb, rfl⟩ := Holds.iff.1 hb
  exact run_cmp hP hc hla hlb sa sb

/-- C108, `iszero_bignum`. -/
theorem C108_is_zero (hP : P.Has bignumCode) (hc : w.ctx < 2 ^ 32) (hla : la + n ≤ 2 ^ 32) (ha : Holds w la n a) :
    Reaches P (.goto (P.addr "iszero_bignum") (n :: la :: ret :: s) w)
      (.goto ret ((if a = 0 then 1 else 0) :: s) w) := by
  obtain ⟨sa, rfl⟩ := Holds.iff.1 ha
  exact run_iszero hP hc hla

/-- C108, `isone_bignum`. -/
theorem C108_is_one (hP : P.Has bignumCode) (hc : w.ctx < 2 ^ 32) (hla : la + n ≤ 2 ^ 32) (ha : Holds w la n a) :
    Reaches P (.goto (P.addr "isone_bignum") (n :: la :: ret :: s) w)
      (.goto ret ((if a = 1 then 1 else 0) :: s) w) := by
  obtain ⟨sa, rfl⟩ := Holds.iff.1 ha
  exact run_isone hP hc hla

/-- C108, `shr_bignum`: halves a number in place. -/
theorem C108_halve (hP : P.Has bignumCode) (hc : w.ctx < 2 ^ 32) (hla : la + n ≤ 2 ^ 32) (ha : Holds w la n a) :
    ∃ w', Reaches P (.goto (P.addr "shr_bignum") (n :: la :: ret :: s) w) (.goto ret s w') ∧
      Holds w' la n (a / 2) ∧ Elsewhere w w' la n := by
  obtain ⟨sa, rfl⟩ := Holds.iff.1 ha
  obtain ⟨w', r, v, sm, k, i⟩ := run_shr (ret := ret) (s := s) hP hc hla sa
  exact ⟨w', r, Holds.iff.2 ⟨sm, v⟩, k.elsewhere i⟩

/-! ### C109 -/

/-- Where the operands of a modular multiplication are, and that they are numbers; the places for the two
products have to be zero in their lower halves. -/
structure ModmulOn (w : World) (n la lb lm lo s1 s2 s3 a b m : Nat) : Prop where
  places : ModmulPlaces n la lb lm lo s1 s2 s3
  holdsA : Holds w la n a
  holdsB : Holds w lb n b
  holdsM : Holds w lm n m
  zero2 : Holds w s2 n 0
  zero3 : Holds w s3 n 0

/-- C109 in full: whatever the prover supplies, a modular multiplication that comes back has stored the
product modulo `m`. -/
def C109_statement : Prop :=
  ∀ (P : Prog) (w : World) (n la lb lm lo s1 s2 s3 a b m ret : Nat) (s : List Nat), P.Has bigCode →
    w.ctx < 2 ^ 32 → 0 < n → ModmulOn w n la lb lm lo s1 s2 s3 a b m → (∀ i, w.inp i < 2 ^ 256) →
      Returns P False (.goto (P.addr "modmul_bignum") (n :: la :: lb :: lm :: lo :: s1 :: s2 :: s3 :: ret :: s) w)
        ret fun s' w' => s' = s ∧ Holds w' lo n (a * b % m)

variable {s1 s2 s3 : Nat}

/-- What holds of C109, for a prover that supplies digits `x` of the remainder and `k` of the low half of
the quotient: the run comes back exactly if `x < m` and `x + k * m` and `a * b` agree in the low `n`
digits, and then the result is `x`. Missing: that they agree in the other `n` digits, which is not
checked (`asm/bignum/modmul.asm:122-124`, `143`). -/
theorem C109_modmul_partial {x k : Nat} (hP : P.Has bigCode) (hc : w.ctx < 2 ^ 32) (hn : 0 < n)
    (h : ModmulOn w n la lb lm lo s1 s2 s3 a b m)
    (hx : x < (2 ^ 128) ^ n) (hxi : ∀ i < n, w.inp i = x / (2 ^ 128) ^ i % 2 ^ 128)
    (hk : k < (2 ^ 128) ^ n) (hki : ∀ i < n, w.inp (n + i) = k / (2 ^ 128) ^ i % 2 ^ 128) :
    Returns P (x < m ∧ (x + k * m) % (2 ^ 128) ^ n = (a * b) % (2 ^ 128) ^ n)
      (.goto (P.addr "modmul_bignum") (n :: la :: lb :: lm :: lo :: s1 :: s2 :: s3 :: ret :: s) w) ret
      fun s' w' => s' = s ∧ (x < m ∧ (x + k * m) % (2 ^ 128) ^ n = (a * b) % (2 ^ 128) ^ n) ∧ Holds w' lo n x ∧
        w'.ctx = w.ctx ∧ (w'.inp = fun j => w.inp (3 * n + j)) ∧
        ∀ a, Outside w lo n a → Outside w s1 (2 * n) a → Outside w s2 (2 * n) a →
          Outside w s3 (2 * n) a → w'.mem a = w.mem a := by
  obtain ⟨sa, rfl⟩ := Holds.iff.1 h.holdsA
  obtain ⟨sb, rfl⟩ := Holds.iff.1 h.holdsB
  obtain ⟨sm, rfl⟩ := Holds.iff.1 h.holdsM
  have ex : num w.inp n = x := (num_congr hxi).trans (num_limb hx)
  have ek : num (fun i => w.inp (n + i)) n = k := (num_congr hki).trans (num_limb hk)
  have := run_modmul (ret := ret) (s := s) hP hn hc h.places sa sb sm
    (fun i hi => by have := h.zero2.2 i hi; rw [Nat.zero_div, Nat.zero_mod] at this; exact this)
    (fun i hi => by have := h.zero3.2 i hi; rw [Nat.zero_div, Nat.zero_mod] at this; exact this)
    (fun i hi => by
      by_cases h : i < n
      · rw [hxi i h]; exact Nat.mod_lt _ (by omega)
      · rw [show i = n + (i - n) by omega, hki _ (by omega)]; exact Nat.mod_lt _ (by omega))
  rw [ex, ek] at this
  refine this.mono id ?_
  rintro s' w' ⟨h1, h2, h3, h4, h5⟩
  exact ⟨h1, h2, Holds.iff.2 ⟨h4, h3⟩, h5⟩

/-- The prover's numbers are right: the digits of `a * b % m`, then the low digits of `a * b / m`. -/
def RightInputs (w : World) (n a b m : Nat) : Prop :=
  (∀ i < n, w.inp i = (a * b % m) / (2 ^ 128) ^ i % 2 ^ 128) ∧
  ∀ i < n, w.inp (n + i) = (a * b / m) / (2 ^ 128) ^ i % 2 ^ 128

/-- With the right numbers the run comes back, with the product modulo `m`. -/
theorem C109_honest (hP : P.Has bigCode) (hc : w.ctx < 2 ^ 32) (hn : 0 < n)
    (h : ModmulOn w n la lb lm lo s1 s2 s3 a b m) (hm : 0 < m) (hr : RightInputs w n a b m) :
    ∃ w', Reaches P (.goto (P.addr "modmul_bignum") (n :: la :: lb :: lm :: lo :: s1 :: s2 :: s3 :: ret :: s) w)
        (.goto ret s w') ∧ Holds w' lo n (a * b % m) := by
  have hM : 0 < (2 ^ 128 : Nat) ^ n := by positivity
  have hlt : a * b % m < m := Nat.mod_lt _ hm
  obtain ⟨s', w', h1, rfl, h2, h3, h4⟩ := (C109_modmul_partial (ret := ret) (s := s) (x := a * b % m)
    (k := a * b / m % (2 ^ 128) ^ n) hP hc hn h (by have := h.holdsM.1; omega) hr.1 (Nat.mod_lt _ hM)
    (fun i hi => by
      rw [hr.2 i hi]
      have e : (2 ^ 128) ^ n = (2 ^ 128) ^ i * (2 ^ 128 * (2 ^ 128) ^ (n - i - 1)) := by
        rw [← pow_succ', ← pow_add]; congr 1; omega
      rw [e, Nat.mod_mul_right_div_self, Nat.mod_mul_right_mod])).sure
    ⟨hlt, by
      rw [Nat.add_mod, Nat.mod_mul_mod, ← Nat.add_mod, Nat.mul_comm _ m, Nat.mod_add_div]⟩
  exact ⟨w', h1, h3⟩

/-- What a result is worth: it agrees with the product modulo the common divisors of `m` and the power of
two. -/
theorem C109_common_divisor {x k : Nat} (h : (x + k * m) % (2 ^ 128) ^ n = (a * b) % (2 ^ 128) ^ n) :
    x % Nat.gcd m ((2 ^ 128) ^ n) = a * b % Nat.gcd m ((2 ^ 128) ^ n) := by
  have h1 : x + k * m ≡ a * b [MOD Nat.gcd m ((2 ^ 128) ^ n)] := Nat.ModEq.of_dvd (Nat.gcd_dvd_right _ _) h
  have h2 : k * m ≡ 0 [MOD Nat.gcd m ((2 ^ 128) ^ n)] :=
    (Nat.modEq_zero_iff_dvd).2 (Dvd.dvd.mul_left (Nat.gcd_dvd_left _ _) k)
  have h3 : x + k * m ≡ x + 0 [MOD Nat.gcd m ((2 ^ 128) ^ n)] := (Nat.ModEq.refl x).add h2
  exact (h3.symm.trans h1)

/-- If neither side leaves the low digits the result is right. -/
theorem C109_no_overflow {x k : Nat} (hx : x < m)
    (h : (x + k * m) % (2 ^ 128) ^ n = (a * b) % (2 ^ 128) ^ n) (h1 : x + k * m < (2 ^ 128) ^ n)
    (h2 : a * b < (2 ^ 128) ^ n) : x = a * b % m := by
  rw [Nat.mod_eq_of_lt h1, Nat.mod_eq_of_lt h2] at h
  rw [← h, Nat.add_mul_mod_self_right, Nat.mod_eq_of_lt hx]

/-- For an odd modulus every `x < m` is accepted with some `k`. -/
theorem every_remainder {x : Nat} (hm : m % 2 = 1) (hx : x < m) (y : Nat) :
    ∃ k < (2 ^ 128) ^ n, (x + k * m) % (2 ^ 128) ^ n = y % (2 ^ 128) ^ n := by
  have co : Nat.Coprime m ((2 ^ 128) ^ n) := by
    rw [← pow_mul]
    exact Nat.Coprime.pow_right _ ((Nat.coprime_comm.1 ((Nat.Prime.coprime_iff_not_dvd Nat.prime_two).2 (by omega))))
  obtain ⟨h1, h2⟩ := (Nat.chineseRemainder co x y).2
  have h3 := Nat.chineseRemainder_lt_mul co x y (by omega) (by positivity)
  generalize (Nat.chineseRemainder co x y : Nat) = z at *
  refine ⟨z / m, Nat.div_lt_of_lt_mul h3, ?_⟩
  have h4 : z % m = x := by rw [h1]; exact Nat.mod_eq_of_lt hx
  rw [← h4, Nat.mul_comm, Nat.mod_add_div]
  exact h2

/-- C109 fails as badly as it can: for an odd modulus, whatever `a` and `b` are, the prover can make the
result any number below the modulus. -/
theorem C109_any_result {x : Nat} (hP : P.Has bigCode) (hc : w.ctx < 2 ^ 32) (hn : 0 < n)
    (h : ModmulOn w n la lb lm lo s1 s2 s3 a b m) (hm : m % 2 = 1) (hx : x < m) :
    ∃ inp : Nat → Nat, (∀ i, inp i < 2 ^ 128) ∧ ∃ w',
      Reaches P (.goto (P.addr "modmul_bignum") (n :: la :: lb :: lm :: lo :: s1 :: s2 :: s3 :: ret :: s)
        { w with inp := inp }) (.goto ret s w') ∧ Holds w' lo n x := by
  obtain ⟨k, hk, hkm⟩ := every_remainder (n := n) hm hx (a * b)
  refine ⟨fun i => if i < n then limb x i else limb k (i - n), fun i => ?_, ?_⟩
  · show (if i < n then limb x i else limb k (i - n)) < _
    split
    · exact limb_small x (i + 1) i (by omega)
    · exact limb_small k (i - n + 1) _ (by omega)
  let w1 : World := { w with inp := fun i => if i < n then limb x i else limb k (i - n) }
  have h' : ModmulOn w1 n la lb lm lo s1 s2 s3 a b m := ⟨h.places, h.holdsA, h.holdsB, h.holdsM, h.zero2, h.zero3⟩
  obtain ⟨s', w', h1, rfl, h2, h3, h4⟩ := (C109_modmul_partial (w := w1) (ret := ret) (s := s) (x := x)
    (k := k) hP hc hn h' (by have := h.holdsM.1; omega) (fun i hi => by
      show (if i < n then limb x i else limb k (i - n)) = _
      rw [if_pos hi]; rfl) hk (fun i hi => by
      show (if n + i < n then limb x (n + i) else limb k (n + i - n)) = _
      rw [if_neg (by omega), Nat.add_sub_cancel_left]; rfl)).sure ⟨hx, hkm⟩
  exact ⟨w', h1, h3⟩

/-! ### Examples -/

/-- A kernel with the code of the arithmetic, and a place that jumps to itself. -/
def bigAll : List (String × List I) := ("here", [.push (.lab "here"), JUMP]) :: bigCode

def bigProg : Prog := Prog.of bigAll (fun _ => 0)

theorem bigProg_all : bigProg.Has bigAll := Prog.of_has bigAll (fun _ => 0) (by decide +kernel) (by decide +kernel)

theorem bigProg_has : bigProg.Has bigCode := bigProg_all.mono fun _ hp => List.mem_cons_of_mem _ hp

theorem bigProg_here (s : List Nat) (w : World) :
    exec bigProg (bigProg.code (bigProg.addr "here")) s w = .goto (bigProg.addr "here") s w := by
  rw [(bigProg_all ("here", [.push (.lab "here"), JUMP]) (List.mem_cons_self ..)).1]
  kexec []

/-- The memory of the example, in context 1: 2, 3 and 5, one after another. -/
def bigMem (x : Nat) : Nat :=
  if x = 2 ^ 64 + 7 * 2 ^ 32 then 2 else if x = 2 ^ 64 + 7 * 2 ^ 32 + 1 then 3 else
  if x = 2 ^ 64 + 7 * 2 ^ 32 + 2 then 5 else 0

def bigWorld (inp : Nat → Nat) : World where
  ctx := 1
  inp := inp
  mem := bigMem

theorem bigWorld_on (inp : Nat → Nat) : ModmulOn (bigWorld inp) 1 0 1 2 3 4 6 8 2 3 5 := by
  refine ⟨⟨?_, ?_, ?_, ?_, ?_, ?_, ?_, ?_, ?_, ?_, ?_, ?_, ?_, ?_, ?_, ?_, ?_, ?_, ?_, ?_, ?_, ?_, ?_, ?_⟩,
    ⟨by decide, ?_⟩, ⟨by decide, ?_⟩, ⟨by decide, ?_⟩, ⟨by decide, ?_⟩, ⟨by decide, ?_⟩⟩ <;>
  first
  | (simp only [Apart]; omega)
  | omega
  | (intro i hi
     obtain rfl : i = 0 := by omega
     simp only [bigWorld]
     decide)

/-- C109 in full is false: 2 * 3 modulo 5 can be 0. -/
theorem C109_modmul_violated : ¬ C109_statement := by
  intro h
  obtain ⟨inp, hi, w', hr, hx⟩ := C109_any_result (ret := bigProg.addr "here") (s := []) (x := 0) bigProg_has
    (by decide) (by decide) (bigWorld_on fun _ => 0) (by decide) (by decide)
  have h1 := (h bigProg (bigWorld inp) 1 0 1 2 3 4 6 8 2 3 5 (bigProg.addr "here") [] bigProg_has
    (by simp only [bigWorld]; decide) (by decide) (bigWorld_on inp) (fun i => by have := hi i; show inp i < _; omega)).only bigProg_here hr
  have h2 := h1.2.2 0 (by decide)
  rw [hx.2 0 (by decide)] at h2
  exact absurd h2 (by decide)

/-- With the right numbers it is 1. -/
example : ∃ w', Reaches bigProg (.goto (bigProg.addr "modmul_bignum") [1, 0, 1, 2, 3, 4, 6, 8, 77]
    (bigWorld fun _ => 1)) (.goto 77 [] w') ∧ Holds w' 3 1 1 :=
  C109_honest (a := 2) (b := 3) (m := 5) bigProg_has (by decide) (by decide) (bigWorld_on _) (by decide)
    ⟨fun i hi => by obtain rfl : i = 0 := by omega
                    decide, fun i hi => by
                    obtain rfl : i = 0 := by omega
                    decide⟩

/-- C108 on two digits: the number of the first two cells of the example, `2 + 3 * 2^128`, halved. -/
example : ∃ w', Reaches bigProg (.goto (bigProg.addr "shr_bignum") [2, 0, 77] (bigWorld fun _ => 1))
    (.goto 77 [] w') ∧ Holds w' 0 2 (1 + 2 ^ 127 + 2 ^ 128) ∧ Elsewhere (bigWorld fun _ => 1) w' 0 2 := by
  have h : Holds (bigWorld fun _ => 1) 0 2 (2 + 3 * 2 ^ 128) :=
    ⟨by decide, fun i hi => by
      match i, hi with
      | 0, _ => decide
      | 1, _ => decide⟩
  exact C108_halve bigProg_has.big (by decide) (by decide) h

/-- … and the square of the two-digit number in the next two cells, `3 + 5 * 2^128`. -/
example : ∃ w', Reaches bigProg (.goto (bigProg.addr "mul_bignum") [2, 1, 1, 3, 77] (bigWorld fun _ => 1))
    (.goto 77 [] w') ∧ Holds w' 3 4 ((3 + 5 * 2 ^ 128) * (3 + 5 * 2 ^ 128)) ∧
      Elsewhere (bigWorld fun _ => 1) w' 3 4 := by
  have h : Holds (bigWorld fun _ => 1) 1 2 (3 + 5 * 2 ^ 128) :=
    ⟨by decide, fun i hi => by
      match i, hi with
      | 0, _ => decide
      | 1, _ => decide⟩
  have h0 : Holds (bigWorld fun _ => 1) 3 2 0 :=
    ⟨by decide, fun i hi => by
      match i, hi with
      | 0, _ => decide
      | 1, _ => decide⟩
  exact C108_mul bigProg_has.big (by decide) (by decide) (by decide) (by decide) (by unfold Apart; decide)
    (by unfold Apart; decide) h h h0

end Verif.Kasm
