import Verif.Kasm.Modexp

/-! Property C111: the kernel's modular exponentiation, which the MODEXP precompile (address 5) rests on. -/

namespace Verif.Kasm

variable {P : Prog} {w : World} {ret n lb le lm lo s1 s2 b e m : Nat} {s : List Nat}

/-- The result of EIP-198: zero for the modulus zero, otherwise `b^e % m` with `0^0 = 1`. -/
def evmModexp (b e m : Nat) : Nat := if m = 0 then 0 else b ^ e % m

/-- C111 in full: whatever the prover supplies, an exponentiation that comes back has stored the power
modulo `m`. -/
def C111_statement : Prop :=
  ∀ (P : Prog) (w : World) (n lb le lm lo s1 s2 b e m ret : Nat) (s : List Nat), P.Powers → w.ctx < 2 ^ 32 → 0 < n →
    ExpOn n lb le lm lo s1 s2 w b e m → (∀ i, w.inp i < 2 ^ 256) →
      Returns P False (.goto (P.addr "modexp_bignum") (expArgs n lb le lm lo s1 s2 ret s) w) ret
        fun s' w' => s' = s ∧ Holds w' lo n (evmModexp b e m)

theorem digits_exists (e : Nat) : ∃ r, Digits e r := by
  by_cases h : e = 0
  · exact ⟨1, by omega, by omega, .inl rfl⟩
  · exact ⟨Nat.log2 e + 1, by omega, Nat.lt_log2_self, .inr (Nat.log2_self_le h)⟩

/-! ### What every prover is held to -/

theorem Accepted.gcd {a c x k : Nat} (h : Accepted n a c m x k) :
    x ≡ a * c [MOD Nat.gcd m ((2 ^ 128) ^ n)] := C109_common_divisor h.2

theorem exp_result_lt : ∀ (r e X Y : Nat) (inp : Nat → Nat), Y < m → expAccepted n m r e X Y inp →
    expResult n r e Y inp < m := by
  intro r
  induction r with
  | zero => intro e X Y inp hY _; exact hY
  | succ r ih =>
    rintro e X Y inp hY ⟨⟨h1, h2⟩, h3⟩
    refine ih _ _ _ _ ?_ h3
    simp only [nextY]; split
    · exact (h1 ‹_›).1
    · exact hY

theorem exp_result_gcd : ∀ (r e X Y : Nat) (inp : Nat → Nat), e < 2 ^ r → expAccepted n m r e X Y inp →
    expResult n r e Y inp ≡ Y * X ^ e [MOD Nat.gcd m ((2 ^ 128) ^ n)] := by
  intro r
  induction r with
  | zero =>
    intro e X Y inp he _
    obtain rfl : e = 0 := by simp at he; exact he
    rw [pow_zero, Nat.mul_one]; exact Nat.ModEq.refl _
  | succ r ih =>
    rintro e X Y inp he ⟨⟨h1, h2⟩, h3⟩
    have h4 := ih _ _ _ _ (by rw [pow_succ] at he; omega) h3
    refine h4.trans ?_
    have h5 : (inpX n (inpMid n e inp)) ^ (e / 2) ≡ X ^ (2 * (e / 2)) [MOD Nat.gcd m ((2 ^ 128) ^ n)] := by
      rw [pow_mul, pow_two]; exact h2.gcd.pow _
    by_cases ho : e % 2 = 1
    · simp only [nextY, if_pos ho]
      have h6 := (h1 ho).gcd.mul h5
      rw [Nat.mul_assoc, ← pow_succ', show 2 * (e / 2) + 1 = e by omega] at h6
      exact h6
    · simp only [nextY, if_neg ho]
      have h6 := (Nat.ModEq.refl Y).mul h5
      rw [show 2 * (e / 2) = e by omega] at h6
      exact h6

/-- What holds of C111 for every prover that supplies digits: the result is right if the modulus is at
most one, and otherwise it is below the modulus and agrees with the power modulo the common divisors of
the modulus and `2^(128 n)`; nothing but the result, the exponent and the scratch space is changed.
Missing: that it agrees modulo the modulus. -/
theorem C111_modexp_partial (hP : P.Powers) (hc : w.ctx < 2 ^ 32) (hn : 0 < n)
    (h : ExpOn n lb le lm lo s1 s2 w b e m) (hin : ∀ i, w.inp i < 2 ^ 128) :
    Returns P False (.goto (P.addr "modexp_bignum") (expArgs n lb le lm lo s1 s2 ret s) w) ret
      fun s' w' => s' = s ∧ (∃ x, Holds w' lo n x ∧ (m ≤ 1 → x = evmModexp b e m) ∧
        (1 < m → x < m ∧ x % Nat.gcd m ((2 ^ 128) ^ n) = b ^ e % Nat.gcd m ((2 ^ 128) ^ n))) ∧
        ExpFrame n le lo s1 s2 w w' := by
  obtain ⟨r, hd⟩ := digits_exists e
  refine (run_modexp hP hn hc h hd hin).mono False.elim ?_
  rintro s' w' ⟨rfl, h1, h2, h3⟩
  refine ⟨rfl, ?_, h3⟩
  by_cases hm : m ≤ 1
  · refine ⟨0, h1 0 (if_pos (by omega)), fun _ => ?_, fun h => absurd h (by omega)⟩
    simp only [evmModexp]
    split
    · rfl
    · obtain rfl : m = 1 := by omega
      exact (Nat.mod_one _).symm
  by_cases hbe : b = 0 ∧ e = 0
  · obtain ⟨rfl, rfl⟩ := hbe
    refine ⟨1, h1 1 ?_, fun h => absurd h hm, fun h => ⟨h, rfl⟩⟩
    simp only [expEarly]; rw [if_neg (by omega), if_pos ⟨trivial, trivial⟩]
  · have hE : expEarly b e m = none := by simp only [expEarly]; rw [if_neg (by omega), if_neg hbe]
    obtain ⟨h4, h5⟩ := h2 hE
    refine ⟨_, h5, fun h => absurd h hm, fun h => ⟨exp_result_lt _ _ _ _ _ h h4, ?_⟩⟩
    have := exp_result_gcd _ _ _ _ _ hd.2.1 h4
    rw [Nat.one_mul] at this
    exact this

/-- For a modulus that is a power of two the result is right. -/
theorem C111_power_of_two {k : Nat} (hP : P.Powers) (hc : w.ctx < 2 ^ 32) (hn : 0 < n)
    (h : ExpOn n lb le lm lo s1 s2 w b e (2 ^ k)) (hin : ∀ i, w.inp i < 2 ^ 128) :
    Returns P False (.goto (P.addr "modexp_bignum") (expArgs n lb le lm lo s1 s2 ret s) w) ret
      fun s' w' => s' = s ∧ Holds w' lo n (evmModexp b e (2 ^ k)) := by
  refine (C111_modexp_partial hP hc hn h hin).mono id ?_
  rintro s' w' ⟨rfl, ⟨x, h1, h2, h3⟩, -⟩
  refine ⟨rfl, ?_⟩
  by_cases hk : (2 : Nat) ^ k ≤ 1
  · rw [← h2 hk]; exact h1
  · obtain ⟨h4, h5⟩ := h3 (by omega)
    have hg : Nat.gcd (2 ^ k) ((2 ^ 128) ^ n) = 2 ^ k := by
      refine Nat.gcd_eq_left ?_
      rw [← pow_mul]
      refine pow_dvd_pow 2 ?_
      have := h.holdsM.1
      rw [← pow_mul] at this
      exact Nat.le_of_lt ((Nat.pow_lt_pow_iff_right (by decide)).1 this)
    rw [hg, Nat.mod_eq_of_lt h4] at h5
    rw [evmModexp, if_neg (by positivity), ← h5]
    exact h1

/-! ### What a prover can supply -/

/-- The digits of a remainder and of a quotient, and further inputs. -/
def feed (n x k : Nat) (rest : Nat → Nat) : Nat → Nat := fun i =>
  if i < n then limb x i else if i < 2 * n then limb k (i - n) else if i < 3 * n then 0 else rest (i - 3 * n)

theorem feed_lt {x k : Nat} {rest : Nat → Nat} (h : ∀ i, rest i < 2 ^ 128) (i : Nat) : feed n x k rest i < 2 ^ 128 := by
  simp only [feed]
  split
  · exact limb_small x (i + 1) i (by omega)
  split
  · exact limb_small k (i - n + 1) _ (by omega)
  split
  · decide
  · exact h _

theorem inpX_feed {x k : Nat} {rest : Nat → Nat} (h : x < (2 ^ 128) ^ n) : inpX n (feed n x k rest) = x := by
  rw [inpX, num_congr (f := feed n x k rest) (g := limb x) fun i hi => if_pos hi]; exact num_limb h

theorem inpK_feed {x k : Nat} {rest : Nat → Nat} (h : k < (2 ^ 128) ^ n) : inpK n (feed n x k rest) = k := by
  rw [inpK, num_congr (g := limb k) fun i hi => ?_]
  · exact num_limb h
  · simp only [feed]
    rw [if_neg (by omega), if_pos (by omega), Nat.add_sub_cancel_left]

theorem inpRest_feed {x k : Nat} {rest : Nat → Nat} : inpRest n (feed n x k rest) = rest := by
  funext j
  simp only [inpRest, feed]
  rw [if_neg (by omega), if_neg (by omega), if_neg (by omega), Nat.add_sub_cancel_left]

/-- Inputs for one round made of inputs for the rest. -/
theorem round_inputs {X Y x1 k1 x2 k2 e : Nat} {rest : Nat → Nat} (hm : m < (2 ^ 128) ^ n) (hk1 : k1 < (2 ^ 128) ^ n)
    (hk2 : k2 < (2 ^ 128) ^ n) (h1 : Accepted n Y X m x1 k1) (h2 : Accepted n X X m x2 k2)
    (hr : ∀ i, rest i < 2 ^ 128) :
    ∃ inp : Nat → Nat, (∀ i, inp i < 2 ^ 128) ∧ roundAccepted n m e X Y inp ∧ inpX n (inpMid n e inp) = x2 ∧
      nextY n e Y inp = (if e % 2 = 1 then x1 else Y) ∧ inpRest n (inpMid n e inp) = rest := by
  have hx1 : x1 < (2 ^ 128) ^ n := Nat.lt_trans h1.1 hm
  have hx2 : x2 < (2 ^ 128) ^ n := Nat.lt_trans h2.1 hm
  by_cases ho : e % 2 = 1
  · refine ⟨feed n x1 k1 (feed n x2 k2 rest), feed_lt (feed_lt hr), ?_, ?_, ?_, ?_⟩ <;>
      simp only [roundAccepted, inpMid, nextY, if_pos ho, inpRest_feed, inpX_feed hx1, inpK_feed hk1, inpX_feed hx2,
        inpK_feed hk2]
    exact ⟨fun _ => h1, h2⟩
  · refine ⟨feed n x2 k2 rest, feed_lt hr, ?_, ?_, ?_, ?_⟩ <;>
      simp only [roundAccepted, inpMid, nextY, if_neg ho, inpRest_feed, inpX_feed hx2, inpK_feed hk2]
    exact ⟨fun h => absurd h ho, h2⟩

/-- For an odd modulus there are inputs for every result. -/
theorem any_inputs {x : Nat} (hm2 : m % 2 = 1) (hm : m < (2 ^ 128) ^ n) (hx : x < m) :
    ∀ (r e X Y : Nat), Digits e r → e ≠ 0 →
      ∃ inp : Nat → Nat, (∀ i, inp i < 2 ^ 128) ∧ expAccepted n m r e X Y inp ∧ expResult n r e Y inp = x := by
  intro r
  induction r with
  | zero => intro e X Y hd; exact absurd hd.1 (by omega)
  | succ r ih =>
    intro e X Y hd he
    obtain ⟨k1, hk1, a1⟩ := every_remainder (n := n) hm2 hx (Y * X)
    obtain ⟨k2, hk2, a2⟩ := every_remainder (n := n) hm2 hx (X * X)
    by_cases h0 : e / 2 = 0
    · obtain rfl := hd.last h0
      obtain ⟨inp, b1, b2, b3, b4, b5⟩ := round_inputs (e := e) (rest := fun _ => 0) hm hk1 hk2 ⟨hx, a1⟩ ⟨hx, a2⟩
        fun _ => by decide
      refine ⟨inp, b1, ⟨b2, trivial⟩, ?_⟩
      show nextY n e Y inp = x
      rw [b4, if_pos (by omega)]
    · obtain ⟨rest, c1, c2, c3⟩ := ih (e / 2) x (if e % 2 = 1 then x else Y) (hd.half h0) h0
      obtain ⟨inp, b1, b2, b3, b4, b5⟩ := round_inputs (e := e) hm hk1 hk2 ⟨hx, a1⟩ ⟨hx, a2⟩ c1
      refine ⟨inp, b1, ⟨b2, ?_⟩, ?_⟩
      · rw [b3, b4, b5]; exact c2
      · show expResult n r (e / 2) (nextY n e Y inp) (inpRest n (inpMid n e inp)) = x
        rw [b4, b5]; exact c3

theorem right_accepted (a c : Nat) (hm : 0 < m) :
    Accepted n a c m (a * c % m) (a * c / m % (2 ^ 128) ^ n) := by
  refine ⟨Nat.mod_lt _ hm, ?_⟩
  rw [Nat.add_mod, Nat.mod_mul_mod, ← Nat.add_mod, Nat.mul_comm _ m, Nat.mod_add_div]

/-- The right remainders and quotients. -/
theorem right_inputs (hm0 : 0 < m) (hm : m < (2 ^ 128) ^ n) :
    ∀ (r e X Y : Nat), Digits e r →
      ∃ inp : Nat → Nat, (∀ i, inp i < 2 ^ 128) ∧ expAccepted n m r e X Y inp ∧
        expResult n r e Y inp = if e = 0 then Y else Y * X ^ e % m := by
  have hM : 0 < (2 ^ 128 : Nat) ^ n := by positivity
  intro r
  induction r with
  | zero => intro e X Y hd; exact absurd hd.1 (by omega)
  | succ r ih =>
    intro e X Y hd
    have a1 := right_accepted (n := n) Y X hm0
    have a2 := right_accepted (n := n) X X hm0
    by_cases h0 : e / 2 = 0
    · obtain rfl := hd.last h0
      obtain ⟨inp, b1, b2, b3, b4, b5⟩ := round_inputs (e := e) (rest := fun _ => 0) hm (Nat.mod_lt _ hM)
        (Nat.mod_lt _ hM) a1 a2 fun _ => by decide
      refine ⟨inp, b1, ⟨b2, trivial⟩, ?_⟩
      show nextY n e Y inp = _
      rw [b4]
      by_cases he : e = 0
      · subst he; rfl
      · obtain rfl : e = 1 := by omega
        rw [if_pos rfl, if_neg (by decide), pow_one]
    · obtain ⟨rest, c1, c2, c3⟩ := ih (e / 2) (X * X % m) (if e % 2 = 1 then Y * X % m else Y) (hd.half h0)
      obtain ⟨inp, b1, b2, b3, b4, b5⟩ := round_inputs (e := e) hm (Nat.mod_lt _ hM) (Nat.mod_lt _ hM) a1 a2 c1
      refine ⟨inp, b1, ⟨b2, ?_⟩, ?_⟩
      · rw [b3, b4, b5]; exact c2
      · show expResult n r (e / 2) (nextY n e Y inp) (inpRest n (inpMid n e inp)) = _
        rw [b4, b5, c3, if_neg h0, if_neg (c := e = 0) (by omega)]
        have h5 : (X * X % m) ^ (e / 2) ≡ X ^ (2 * (e / 2)) [MOD m] := by
          rw [pow_mul, pow_two]; exact (Nat.mod_modEq _ _).pow _
        by_cases ho : e % 2 = 1
        · rw [if_pos ho]
          have h6 := (Nat.mod_modEq (Y * X) m).mul h5
          rw [Nat.mul_assoc Y, ← pow_succ', show 2 * (e / 2) + 1 = e by omega] at h6
          exact h6
        · rw [if_neg ho]
          have h6 := (Nat.ModEq.refl Y).mul h5
          rw [show 2 * (e / 2) = e by omega] at h6
          exact h6

theorem ExpOn.with_inp {inp : Nat → Nat} (h : ExpOn n lb le lm lo s1 s2 w b e m) :
    ExpOn n lb le lm lo s1 s2 { w with inp := inp } b e m :=
  ⟨h.places, h.holdsB, h.holdsE, h.holdsM, h.zeroO, h.zero2⟩

/-- C111 fails as badly as it can: for an odd modulus and an exponent other than zero, whatever the base
is, the prover can make the result any number below the modulus. -/
theorem C111_any_result {x : Nat} (hP : P.Powers) (hc : w.ctx < 2 ^ 32) (hn : 0 < n)
    (h : ExpOn n lb le lm lo s1 s2 w b e m) (hm : m % 2 = 1) (h1 : 1 < m) (he : e ≠ 0) (hx : x < m) :
    ∃ inp : Nat → Nat, (∀ i, inp i < 2 ^ 128) ∧ ∃ w',
      Reaches P (.goto (P.addr "modexp_bignum") (expArgs n lb le lm lo s1 s2 ret s) { w with inp := inp })
        (.goto ret s w') ∧ Holds w' lo n x := by
  obtain ⟨r, hd⟩ := digits_exists e
  obtain ⟨inp, i1, i2, i3⟩ := any_inputs (x := x) hm h.holdsM.1 hx r e b 1 hd he
  have hE : expEarly b e m = none := by simp only [expEarly]; rw [if_neg (by omega), if_neg (by omega)]
  obtain ⟨s', w', r1, rfl, -, r2, -⟩ := (run_modexp (ret := ret) (s := s) (w := { w with inp := inp }) hP hn hc
    h.with_inp hd i1).sure fun _ => i2
  refine ⟨inp, i1, w', r1, ?_⟩
  have := (r2 hE).2
  rw [i3] at this
  exact this

/-- With the right remainders and quotients the run comes back, with the right result. -/
theorem C111_honest (hP : P.Powers) (hc : w.ctx < 2 ^ 32) (hn : 0 < n)
    (h : ExpOn n lb le lm lo s1 s2 w b e m) :
    ∃ inp : Nat → Nat, (∀ i, inp i < 2 ^ 128) ∧ ∃ w',
      Reaches P (.goto (P.addr "modexp_bignum") (expArgs n lb le lm lo s1 s2 ret s) { w with inp := inp })
        (.goto ret s w') ∧ Holds w' lo n (evmModexp b e m) := by
  obtain ⟨r, hd⟩ := digits_exists e
  by_cases hm : m ≤ 1
  · obtain ⟨s', w', r1, rfl, r2, -⟩ := (run_modexp (ret := ret) (s := s) (w := { w with inp := fun _ => 0 }) hP hn hc
      h.with_inp hd fun _ => show 0 < 2 ^ 128 by decide).sure fun hE => by
        rw [expEarly, if_pos (by omega)] at hE; cases hE
    refine ⟨_, fun _ => by decide, w', r1, ?_⟩
    have := r2 0 (by rw [expEarly, if_pos (by omega)])
    have h0 : evmModexp b e m = 0 := by
      simp only [evmModexp]; split
      · rfl
      · obtain rfl : m = 1 := by omega
        exact Nat.mod_one _
    rw [h0]; exact this
  · obtain ⟨inp, i1, i2, i3⟩ := right_inputs (by omega) h.holdsM.1 r e b 1 hd
    obtain ⟨s', w', r1, rfl, r2, r3, -⟩ := (run_modexp (ret := ret) (s := s) (w := { w with inp := inp }) hP hn hc
      h.with_inp hd i1).sure fun _ => i2
    refine ⟨inp, i1, w', r1, ?_⟩
    rw [evmModexp, if_neg (by omega)]
    by_cases hbe : b = 0 ∧ e = 0
    · have := r2 1 (by rw [expEarly, if_neg (by omega), if_pos hbe])
      rw [hbe.2, pow_zero, Nat.mod_eq_of_lt (by omega)]; exact this
    · have := (r3 (by rw [expEarly, if_neg (by omega), if_neg hbe])).2
      have e1 : expResult n r e 1 inp = b ^ e % m := by
        rw [i3]; split
        · rename_i h0; rw [h0, pow_zero, Nat.mod_eq_of_lt (by omega)]
        · rw [Nat.one_mul]
      rw [← e1]; exact this

/-! ### Examples -/

/-- A kernel with the code of the exponentiation, and a place that jumps to itself. -/
def expAll : List (String × List I) := bigAll ++ modexpCode ++ copyCode

def expProg : Prog := tableProg expAll fun _ => 0

theorem expProg_all : expProg.Has expAll :=
  tableProg_has _ _ (by decide +kernel) (by decide +kernel) (by decide +kernel)

theorem expProg_powers : expProg.Powers where
  exp := expProg_all.mono fun _ hp => List.mem_append_left _ (List.mem_append_right _ hp)
  mul := expProg_all.mono fun _ hp => List.mem_append_left _ (List.mem_append_left _ (List.mem_cons_of_mem _ hp))
  copies := tableProg_copies _ _ (by decide +kernel) (by decide +kernel) (by decide +kernel)
    fun _ hp => List.mem_append_right _ hp

theorem expProg_here (s : List Nat) (w : World) :
    exec expProg (expProg.code (expProg.addr "here")) s w = .goto (expProg.addr "here") s w := by
  rw [(expProg_all ("here", [.push (.lab "here"), JUMP]) (List.mem_cons_self ..)).1]
  kexec []

/-- The memory of the example: 2 to the third modulo 5, one digit each. -/
theorem bigWorld_exp (inp : Nat → Nat) : ExpOn 1 0 1 2 3 4 5 (bigWorld inp) 2 3 5 := by
  have hz : ∀ l k, 3 ≤ l → Holds (bigWorld inp) l k 0 := fun l k hl =>
    Holds.zero_iff.2 fun i _ => by
      simp only [limbs, bigWorld, base, bigMem]
      rw [if_neg (by omega), if_neg (by omega), if_neg (by omega)]
  refine ⟨⟨?_, ?_, ?_, ?_, ?_, ?_, ?_, ?_, ?_, ?_, ?_, ?_, ?_, ?_, ?_, ?_, ?_, ?_, ?_⟩, ?_, ?_, ?_,
    hz _ _ (by omega), hz _ _ (by omega)⟩
  all_goals first
    | decide
    | (simp only [Apart]; omega)
    | (refine ⟨by decide, fun i hi => ?_⟩
       obtain rfl : i = 0 := by omega
       simp only [bigWorld, bigMem]
       decide)

/-- C111 is false: 2 to the third modulo 5 can come out as 0. -/
theorem C111_modexp_violated : ¬ C111_statement := by
  intro h
  obtain ⟨inp, hi, w', hr, hx⟩ := C111_any_result (ret := expProg.addr "here") (s := []) (x := 0) expProg_powers
    (by decide) (by decide) (bigWorld_exp fun _ => 0) (by decide) (by decide) (by decide) (by decide)
  have h1 := (h expProg (bigWorld inp) 1 0 1 2 3 4 5 2 3 5 (expProg.addr "here") [] expProg_powers
    (by simp only [bigWorld]; decide) (by decide) (bigWorld_exp inp) (fun i => by have := hi i; show inp i < _; omega)).only expProg_here hr
  have h2 := h1.2.2 0 (by decide)
  rw [hx.2 0 (by decide)] at h2
  exact absurd h2 (by decide)

/-- With the right numbers it is 3. -/
example : ∃ inp : Nat → Nat, (∀ i, inp i < 2 ^ 128) ∧ ∃ w', Reaches expProg (.goto (expProg.addr "modexp_bignum")
    [1, 0, 1, 2, 3, 4, 5, 7, 9, 11, 77] (bigWorld inp)) (.goto 77 [] w') ∧ Holds w' 3 1 3 :=
  C111_honest (ret := 77) (s := []) expProg_powers (by decide) (by decide) (bigWorld_exp fun _ => 0)

end Verif.Kasm
