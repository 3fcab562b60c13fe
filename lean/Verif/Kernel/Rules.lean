import Verif.Kernel.Optimizer
import Verif.Kernel.Simulate

/-!
# The rules of the optimizer
-/
namespace Verif.Kernel

/-! ## Constants -/

theorem evmUnary_none {o : Op} {x y z : Word} (h : evmBinary o x y = some z) : evmUnary o x = none := by
  cases o <;> simp_all [evmBinary, evmUnary]

theorem evmOp_binary {o : Op} {x y z : Word} (h : evmBinary o x y = some z) (s : Stack) :
    evmOp o (.word x :: .word y :: s) = some (.word z :: s) := by
  have hu := evmUnary_none h
  cases o <;> simp_all [evmOp, evmBinary]

theorem evmBinary_comm {o : Op} (ho : listedCommutative o = true) (x y : Word) : evmBinary o x y = evmBinary o y x := by
  cases o <;> simp [listedCommutative] at ho <;> simp only [evmBinary, Option.some.injEq]
  · exact BitVec.add_comm x y
  · exact BitVec.mul_comm x y
  · exact BitVec.and_comm x y
  · exact BitVec.or_comm x y
  · exact BitVec.xor_comm x y
  · by_cases h : x = y
    · rw [if_pos h, if_pos h.symm]
    · rw [if_neg h, if_neg (fun e => h e.symm)]

/-- The table of constant propagation agrees with the EVM, but for BYTE. -/
theorem foldTable_sound {o : Op} {x y : Word} {z : Nat} (h : foldTable o x.toNat y.toNat = .ok (some z)) (hb : o ≠ .byte) :
    evmBinary o x y = some (BitVec.ofNat 256 z) := by
  have hx := x.isLt
  have hy := y.isLt
  cases o <;> simp only [foldTable, Except.ok.injEq, Option.some.injEq, reduceCtorEq] at h <;> simp only [evmBinary, Option.some.injEq]
  case byte => exact absurd rfl hb
  case add => subst h; apply BitVec.eq_of_toNat_eq; simp
  case sub =>
    subst h; apply BitVec.eq_of_toNat_eq
    rw [BitVec.toNat_sub, BitVec.toNat_ofNat, Nat.mod_mod]
    congr 1; omega
  case mul => subst h; apply BitVec.eq_of_toNat_eq; simp
  case div =>
    subst h
    by_cases e : y = 0
    · subst e; simp
    · have : y.toNat ≠ 0 := fun c => e (BitVec.eq_of_toNat_eq (by simpa using c))
      rw [if_neg e, if_neg this]
      apply BitVec.eq_of_toNat_eq
      rw [BitVec.toNat_udiv, BitVec.toNat_ofNat, Nat.mod_eq_of_lt]
      exact Nat.lt_of_le_of_lt (Nat.div_le_self _ _) hx
  case mod =>
    subst h
    by_cases e : y = 0
    · subst e; simp
    · have : y.toNat ≠ 0 := fun c => e (BitVec.eq_of_toNat_eq (by simpa using c))
      rw [if_neg e, if_neg this]
      apply BitVec.eq_of_toNat_eq
      rw [BitVec.toNat_umod, BitVec.toNat_ofNat, Nat.mod_eq_of_lt (a := x.toNat % y.toNat)]
      exact Nat.lt_of_le_of_lt (Nat.mod_le _ _) hx
  case exp =>
    subst h; apply BitVec.eq_of_toNat_eq
    rw [BitVec.toNat_ofNat, BitVec.toNat_ofNat, Nat.mod_mod]
  case shl =>
    split at h
    · simp only [Except.ok.injEq, Option.some.injEq] at h
      subst h; apply BitVec.eq_of_toNat_eq
      rw [BitVec.toNat_shiftLeft, BitVec.toNat_ofNat, Nat.shiftLeft_eq]
      split
      · rw [Nat.mod_mod]
      · obtain ⟨k, hk⟩ : ∃ k, x.toNat = 256 + k := ⟨x.toNat - 256, by omega⟩
        rw [hk, Nat.pow_add, ← Nat.mul_assoc, Nat.mul_right_comm, Nat.mul_mod_left]
    · simp at h
  case shr =>
    split at h
    · simp only [Except.ok.injEq, Option.some.injEq] at h
      subst h; apply BitVec.eq_of_toNat_eq
      rw [BitVec.toNat_ushiftRight, BitVec.toNat_ofNat, Nat.shiftRight_eq_div_pow]
      split
      · rw [Nat.mod_eq_of_lt]
        exact Nat.lt_of_le_of_lt (Nat.div_le_self _ _) hy
      · rw [Nat.div_eq_of_lt]
        exact Nat.lt_of_lt_of_le hy (Nat.pow_le_pow_right (by decide) (by omega))
    · simp at h
  case and =>
    subst h; apply BitVec.eq_of_toNat_eq
    rw [BitVec.toNat_and, BitVec.toNat_ofNat, Nat.mod_eq_of_lt (Nat.lt_of_le_of_lt Nat.and_le_left hx)]
  case or =>
    subst h; apply BitVec.eq_of_toNat_eq
    rw [BitVec.toNat_or, BitVec.toNat_ofNat, Nat.mod_eq_of_lt (Nat.or_lt_two_pow hx hy)]
  case xor =>
    subst h; apply BitVec.eq_of_toNat_eq
    rw [BitVec.toNat_xor, BitVec.toNat_ofNat, Nat.mod_eq_of_lt (Nat.xor_lt_two_pow hx hy)]
  case lt => subst h; split <;> simp_all
  case gt => subst h; split <;> simp_all
  case eq =>
    subst h
    by_cases e : x = y
    · simp [e]
    · have : x.toNat ≠ y.toNat := fun c => e (BitVec.eq_of_toNat_eq c)
      rw [if_neg e, if_neg this]
      rfl

/-! ## Requirements on a program -/

/-- The programs for which the whole optimizer is proved correct: labels are declared once, BYTE does not occur, and
the window on which De Morgan's rule goes wrong cannot arise. -/
structure Guard (code : List Item) : Prop where
  labels : (declared code).Nodup
  byte : .op .byte ∉ code
  morgan : .op (.dup 1) ∉ code ∨ .op .not ∉ code ∨ (.op .and ∉ code ∧ .op .or ∉ code)

/-- What replacing `v` by `r` leaves alone. -/
structure Keeps (v r : List Item) : Prop where
  labels : declared r = declared v
  byte : .op .byte ∈ r → .op .byte ∈ v
  dup : .op (.dup 1) ∈ r → .op (.dup 1) ∈ v
  not : .op .not ∈ r → .op .not ∈ v
  andOr : .op .and ∈ r ∨ .op .or ∈ r → .op .and ∈ v ∨ .op .or ∈ v
  shift : .op .shl ∈ r ∨ .op .shr ∈ r → .op .shl ∈ v ∨ .op .shr ∈ v

theorem Guard.replace {P v r S : List Item} (h : Guard (P ++ v ++ S)) (k : Keeps v r) : Guard (P ++ r ++ S) := by
  obtain ⟨h1, h2, h3⟩ := h
  refine ⟨?_, ?_, ?_⟩
  · rw [declared_append, declared_append] at h1 ⊢
    rw [k.labels]; exact h1
  · have := k.byte
    simp only [List.mem_append, not_or] at h2 ⊢
    grind
  · have a := k.dup
    have b := k.not
    have c := k.andOr
    simp only [List.mem_append, not_or] at h3 ⊢
    grind

/-! ## The rules one by one -/

theorem ifBetter_some {rule : Rule} {v r : List Item} (h : ifBetter rule v = .ok (some r)) : rule v = .ok (some r) := by
  unfold ifBetter at h
  split at h
  · simp at h
  · simp at h
  · rename_i r' e
    rw [e]
    split at h <;> simp_all

/-- Every rule shortens the window. -/
def Shrinks (rule : Rule) : Prop := ∀ v r, rule v = .ok (some r) → r.length < v.length

/-- Every rule keeps labels and introduces no new kinds of operations. -/
def Keep (rule : Rule) : Prop := ∀ v r, rule v = .ok (some r) → Keeps v r

theorem ifBetter_shrinks {rule : Rule} (h : Shrinks rule) : Shrinks (ifBetter rule) := fun v r e => h v r (ifBetter_some e)
theorem ifBetter_keep {rule : Rule} (h : Keep rule) : Keep (ifBetter rule) := fun v r e => h v r (ifBetter_some e)

theorem foldUnary_some {v r : List Item} (h : foldUnary v = .ok (some r)) :
    ∃ x o z, v = [.push (.literal x), .op o] ∧ r = [.push (.literal z)] ∧ evmUnary o x = some z := by
  unfold foldUnary at h
  split at h
  · rename_i x
    simp only [Except.ok.injEq, Option.some.injEq] at h
    refine ⟨x, .iszero, _, rfl, h.symm, ?_⟩
    simp only [evmUnary, ofBool, beq_iff_eq]
  · rename_i x
    simp only [Except.ok.injEq, Option.some.injEq] at h
    exact ⟨x, .not, _, rfl, h.symm, rfl⟩
  · simp at h

theorem foldBinary_some {v r : List Item} (h : foldBinary v = .ok (some r)) :
    ∃ x y o z, v = [.push (.literal y), .push (.literal x), .op o] ∧ r = [.push (.literal (BitVec.ofNat 256 z))] ∧
      foldTable o x.toNat y.toNat = .ok (some z) := by
  unfold foldBinary at h
  split at h
  · rename_i y x o
    split at h
    · simp at h
    · simp at h
    · rename_i z e
      simp only [Except.ok.injEq, Option.some.injEq] at h
      exact ⟨x, y, o, z, rfl, h.symm, e⟩
  · simp at h

theorem identity_some {v r : List Item} (h : identityRule v = .ok (some r)) :
    ∃ x o, v = [.push (.literal x), .op o] ∧ r = [] ∧ ∀ y, evmBinary o x y = some y := by
  unfold identityRule at h
  split at h
  · rename_i x
    simp only [Except.ok.injEq, Option.ite_none_right_eq_some, Option.some.injEq] at h
    refine ⟨x, .add, rfl, h.2.symm, fun y => ?_⟩
    rw [h.1]; simp [evmBinary]
  · rename_i x
    simp only [Except.ok.injEq, Option.ite_none_right_eq_some, Option.some.injEq] at h
    refine ⟨x, .mul, rfl, h.2.symm, fun y => ?_⟩
    rw [h.1]; simp [evmBinary]
  · rename_i x
    simp only [Except.ok.injEq, Option.ite_none_right_eq_some, Option.some.injEq] at h
    refine ⟨x, .or, rfl, h.2.symm, fun y => ?_⟩
    rw [h.1]; simp [evmBinary]
  · rename_i x
    simp only [Except.ok.injEq, Option.ite_none_right_eq_some, Option.some.injEq] at h
    refine ⟨x, .xor, rfl, h.2.symm, fun y => ?_⟩
    rw [h.1]; simp [evmBinary]
  · simp at h

theorem noOpJump_some {v r : List Item} (h : noOpJump v = .ok (some r)) :
    ∃ l d, v = [.push (.label l), .op .jump, d] ∧ r = [d] ∧ (d = .localLabel l ∨ d = .globalLabel l) := by
  unfold noOpJump at h
  split at h
  · rename_i l d
    simp only [Except.ok.injEq, Option.ite_none_right_eq_some, Option.some.injEq] at h
    exact ⟨l, d, rfl, h.2.symm, h.1⟩
  · simp at h

theorem swappedPushes_some {v r : List Item} (h : swappedPushes v = .ok (some r)) :
    ∃ x y, v = [.push x, .push y, .op (.swap 1)] ∧ r = [.push y, .push x] := by
  unfold swappedPushes at h
  split at h
  · simp only [Except.ok.injEq, Option.some.injEq] at h
    exact ⟨_, _, rfl, h.symm⟩
  · simp at h

theorem swapCommutative_some {v r : List Item} (h : swapCommutative v = .ok (some r)) :
    ∃ f, v = [.op (.swap 1), .op f] ∧ r = [.op f] ∧ listedCommutative f = true := by
  unfold swapCommutative at h
  split at h
  · simp only [Except.ok.injEq, Option.ite_none_right_eq_some, Option.some.injEq] at h
    exact ⟨_, rfl, h.2.symm, h.1⟩
  · simp at h

theorem ignoredValue_some {v r : List Item} (h : ignoredValue v = .ok (some r)) :
    ∃ a, v = [a, .op .pop] ∧ r = [] ∧ isPushOrDup a = true := by
  unfold ignoredValue at h
  split at h
  · simp only [Except.ok.injEq, Option.ite_none_right_eq_some, Option.some.injEq] at h
    exact ⟨_, rfl, h.2.symm, h.1⟩
  · simp at h

theorem deMorgan_some {v r : List Item} (h : deMorgan v = .ok (some r)) :
    ∃ a b f g, v = [a, .op .not, b, .op .not, .op f] ∧ r = [a, b, .op g, .op .not] ∧ isPushOrDup a = true ∧
      isPushOrDup b = true ∧ ((f = .and ∧ g = .or) ∨ (f = .or ∧ g = .and)) := by
  unfold deMorgan at h
  split at h
  · simp only [Except.ok.injEq, Option.ite_none_right_eq_some, Option.some.injEq] at h
    exact ⟨_, _, _, _, rfl, h.2.symm, h.1.1, h.1.2, .inl ⟨rfl, rfl⟩⟩
  · simp only [Except.ok.injEq, Option.ite_none_right_eq_some, Option.some.injEq] at h
    exact ⟨_, _, _, _, rfl, h.2.symm, h.1.1, h.1.2, .inr ⟨rfl, rfl⟩⟩
  · simp at h

/-- A property of all rules. -/
theorem passes_induct {C : Nat → Rule → Prop} (h1 : C 2 (ifBetter foldUnary)) (h2 : C 3 (ifBetter foldBinary)) (h3 : C 2 identityRule)
    (h4 : C 3 noOpJump) (h5 : C 3 swappedPushes) (h6 : C 2 swapCommutative) (h7 : C 2 ignoredValue) (h8 : C 5 deMorgan) :
    ∀ p ∈ passes, C p.width p.rule := by
  intro p hp
  simp only [passes, List.mem_cons, List.not_mem_nil, or_false] at hp
  rcases hp with rfl | rfl | rfl | rfl | rfl | rfl | rfl | rfl <;> assumption

theorem shrinks : ∀ p ∈ passes, Shrinks p.rule := by
  apply passes_induct (C := fun _ rule => Shrinks rule)
  · refine ifBetter_shrinks fun v r h => ?_
    obtain ⟨_, _, _, rfl, rfl, _⟩ := foldUnary_some h; simp
  · refine ifBetter_shrinks fun v r h => ?_
    obtain ⟨_, _, _, _, rfl, rfl, _⟩ := foldBinary_some h; simp
  · intro v r h; obtain ⟨_, _, rfl, rfl, _⟩ := identity_some h; simp
  · intro v r h; obtain ⟨_, _, rfl, rfl, _⟩ := noOpJump_some h; simp
  · intro v r h; obtain ⟨_, _, rfl, rfl⟩ := swappedPushes_some h; simp
  · intro v r h; obtain ⟨_, rfl, rfl, _⟩ := swapCommutative_some h; simp
  · intro v r h; obtain ⟨_, rfl, rfl, _⟩ := ignoredValue_some h; simp
  · intro v r h; obtain ⟨_, _, _, _, rfl, rfl, _⟩ := deMorgan_some h; simp

theorem declared_pushOrDup {a : Item} (h : isPushOrDup a = true) (c : List Item) : declared (a :: c) = declared c := by
  cases a <;> simp_all [isPushOrDup, declared]

theorem keeps : ∀ p ∈ passes, Keep p.rule := by
  apply passes_induct (C := fun _ rule => Keep rule)
  · refine ifBetter_keep fun v r h => ?_
    obtain ⟨_, _, _, rfl, rfl, _⟩ := foldUnary_some h
    constructor <;> simp [declared]
  · refine ifBetter_keep fun v r h => ?_
    obtain ⟨_, _, _, _, rfl, rfl, _⟩ := foldBinary_some h
    constructor <;> simp [declared]
  · intro v r h; obtain ⟨_, _, rfl, rfl, _⟩ := identity_some h
    constructor <;> simp [declared]
  · intro v r h; obtain ⟨_, _, rfl, rfl, hd⟩ := noOpJump_some h
    rcases hd with rfl | rfl <;> constructor <;> simp [declared]
  · intro v r h; obtain ⟨_, _, rfl, rfl⟩ := swappedPushes_some h
    constructor <;> simp [declared]
  · intro v r h; obtain ⟨_, rfl, rfl, _⟩ := swapCommutative_some h
    constructor <;> simp [declared]
  · intro v r h; obtain ⟨_, rfl, rfl, ha⟩ := ignoredValue_some h
    constructor <;> simp [declared_pushOrDup ha] <;> simp [declared]
  · intro v r h; obtain ⟨a, b, f, g, rfl, rfl, ha, hb, hfg⟩ := deMorgan_some h
    rcases hfg with ⟨rfl, rfl⟩ | ⟨rfl, rfl⟩ <;> constructor <;>
      simp [declared_pushOrDup ha, declared_pushOrDup hb, declared] <;> grind

/-! ## Preservation by each rule -/

/-- Applying the rule once preserves the behaviour of programs that satisfy `C`. -/
def SoundRule (C : List Item → Prop) (rule : Rule) : Prop :=
  ∀ P v r S, rule v = .ok (some r) → C (P ++ v ++ S) → Preserves (P ++ v ++ S) (P ++ r ++ S)

theorem sound_ifBetter {C : List Item → Prop} {rule : Rule} (h : SoundRule C rule) : SoundRule C (ifBetter rule) :=
  fun P v r S e c => h P v r S (ifBetter_some e) c

theorem foldUnary_sound : SoundRule (fun _ => True) foldUnary := by
  intro P v r S h _
  obtain ⟨x, o, z, rfl, rfl, hz⟩ := foldUnary_some h
  have ho : o = .iszero ∨ o = .not := by cases o <;> simp_all [evmUnary]
  apply preserves_pures
  · rcases ho with rfl | rfl <;> simp [isPure]
  · simp [isPure]
  · simp
  · intro s s' hs
    rw [← hs]
    have : evmOp o (.word x :: s) = some (.word z :: s) := by
      cases s with
      | nil => rcases ho with rfl | rfl <;> simp_all [evmOp]
      | cons y s => cases y <;> rcases ho with rfl | rfl <;> simp_all [evmOp]
    simp [pures, pureItem, this]

theorem binary_pure {o : Op} {x y z : Word} (h : evmBinary o x y = some z) : isPure (.op o) = true := by
  cases o <;> simp_all [evmBinary, isPure]

theorem foldBinary_sound : SoundRule (fun c => .op .byte ∉ c) foldBinary := by
  intro P v r S h hc
  obtain ⟨x, y, o, z, rfl, rfl, hz⟩ := foldBinary_some h
  have hb : o ≠ .byte := by
    rintro rfl; apply hc; simp
  have he := foldTable_sound hz hb
  apply preserves_pures
  · have := binary_pure he
    simp_all [isPure]
  · simp [isPure]
  · simp
  · intro s s' hs
    rw [← hs]
    simp [pures, pureItem, evmOp_binary he]

theorem evmOp_binary_inv {o : Op} (h : ∃ x y z, evmBinary o x y = some z) {a b : Val} {s s' : Stack} (hs : evmOp o (a :: b :: s) = some s') :
    ∃ x y z, a = .word x ∧ b = .word y ∧ evmBinary o x y = some z ∧ s' = .word z :: s := by
  obtain ⟨x0, y0, z0, h⟩ := h
  have hu : ∀ x, evmUnary o x = none := by intro x; cases o <;> simp_all [evmBinary, evmUnary]
  cases a with
  | addr l => cases o <;> simp_all [evmOp, evmBinary]
  | word x =>
    cases b with
    | addr l => cases o <;> simp_all [evmOp, evmBinary]
    | word y =>
      cases o <;> simp_all [evmOp, evmBinary]

theorem evmOp_binary_short {o : Op} (h : ∃ x y z, evmBinary o x y = some z) {a : Val} : evmOp o [a] = none := by
  obtain ⟨x0, y0, z0, h⟩ := h
  cases a <;> cases o <;> simp_all [evmOp, evmBinary, evmUnary]

theorem evmOp_binary_nil {o : Op} (h : ∃ x y z, evmBinary o x y = some z) : evmOp o [] = none := by
  obtain ⟨x0, y0, z0, h⟩ := h
  cases o <;> simp_all [evmOp, evmBinary]

theorem identity_sound : SoundRule (fun _ => True) identityRule := by
  intro P v r S h _
  obtain ⟨x, o, rfl, rfl, hz⟩ := identity_some h
  have hex : ∃ x y z, evmBinary o x y = some z := ⟨x, 0, 0, hz 0⟩
  apply preserves_pures
  · have := binary_pure (hz 0)
    simp_all [isPure]
  · simp
  · simp
  · intro s s' hs
    simp only [pures, pureItem, Option.bind_some] at hs ⊢
    cases s with
    | nil => rw [evmOp_binary_short hex] at hs; simp at hs
    | cons b s =>
      cases h2 : evmOp o (.word x :: b :: s) with
      | none => rw [h2] at hs; simp at hs
      | some t =>
        rw [h2] at hs
        obtain ⟨x', y, z, hx, rfl, hb, rfl⟩ := evmOp_binary_inv hex h2
        cases hx
        rw [hz y] at hb
        cases hb
        simpa using hs

theorem noOpJump_sound : SoundRule (fun c => (declared c).Nodup) noOpJump := by
  intro P v r S h hc
  obtain ⟨l, d, rfl, rfl, hd⟩ := noOpJump_some h
  exact preserves_jump hd hc

theorem swappedPushes_sound : SoundRule (fun _ => True) swappedPushes := by
  intro P v r S h _
  obtain ⟨x, y, rfl, rfl⟩ := swappedPushes_some h
  apply preserves_pures
  · simp [isPure]
  · simp [isPure]
  · simp
  · intro s s' hs
    rw [← hs]
    cases x <;> cases y <;> simp [pures, pureItem, evmOp, swapTop]

theorem swapCommutative_sound : SoundRule (fun _ => True) swapCommutative := by
  intro P v r S h _
  obtain ⟨f, rfl, rfl, hf⟩ := swapCommutative_some h
  have hex : ∃ x y z, evmBinary f x y = some z := ⟨0, 0, by cases f <;> simp_all [listedCommutative, evmBinary]⟩
  have hp : isPure (.op f) = true := by obtain ⟨x, y, z, h⟩ := hex; exact binary_pure h
  apply preserves_pures
  · simp [hp]; simp [isPure]
  · simp [hp]
  · simp
  · intro s s' hs
    match s with
    | [] => simp [pures, pureItem, evmOp, swapTop] at hs
    | [a] => simp [pures, pureItem, evmOp, swapTop] at hs
    | a :: b :: s =>
      simp only [pures, pureItem] at hs ⊢
      have e : evmOp (.swap 1) (a :: b :: s) = some (b :: a :: s) := by simp [evmOp, swapTop]
      rw [e] at hs
      simp only [Option.bind_some] at hs
      cases h2 : evmOp f (b :: a :: s) with
      | none => rw [h2] at hs; simp at hs
      | some t =>
        rw [h2] at hs
        obtain ⟨x, y, z, rfl, rfl, hb, rfl⟩ := evmOp_binary_inv hex h2
        rw [evmBinary_comm hf] at hb
        rw [evmOp_binary hb]
        exact hs

theorem pushOrDup_cases {a : Item} (h : isPushOrDup a = true) :
    (∃ t, a = .push t) ∨ ∃ n, a = .op (.dup n) := by
  cases a with
  | push t => exact .inl ⟨t, rfl⟩
  | op o => cases o <;> simp_all [isPushOrDup]
  | _ => simp [isPushOrDup] at h

/-- A push or DUP puts one entry on the stack. -/
theorem pushOrDup_effect {a : Item} (h : isPushOrDup a = true) {s s' : Stack} (hs : pureItem a s = some s') : ∃ x, s' = x :: s := by
  rcases pushOrDup_cases h with ⟨t, rfl⟩ | ⟨n, rfl⟩
  · cases t <;> simp only [pureItem, Option.some.injEq] at hs <;> exact ⟨_, hs.symm⟩
  · simp only [pureItem, evmOp, Option.ite_none_right_eq_some, Option.map_eq_some_iff] at hs
    obtain ⟨_, x, _, rfl⟩ := hs
    exact ⟨x, rfl⟩

theorem pushOrDup_pure {a : Item} (h : isPushOrDup a = true) : isPure a = true := by
  rcases pushOrDup_cases h with ⟨t, rfl⟩ | ⟨n, rfl⟩ <;> rfl

theorem ignoredValue_sound : SoundRule (fun _ => True) ignoredValue := by
  intro P v r S h _
  obtain ⟨a, rfl, rfl, ha⟩ := ignoredValue_some h
  apply preserves_pures
  · simp [pushOrDup_pure ha]; simp [isPure]
  · simp
  · simp
  · intro s s' hs
    simp only [pures] at hs ⊢
    cases h1 : pureItem a s with
    | none => rw [h1] at hs; simp at hs
    | some t =>
      obtain ⟨x, rfl⟩ := pushOrDup_effect ha h1
      rw [h1] at hs
      simpa [pureItem, evmOp] using hs

/-- Except for DUP1, the entry put on the stack does not depend on the top of the stack. -/
theorem pushOrDup_top {b : Item} (h : isPushOrDup b = true) (h1 : b ≠ .op (.dup 1)) (u v : Val) {s : Stack} {x : Val} :
    pureItem b (u :: s) = some (x :: u :: s) → pureItem b (v :: s) = some (x :: v :: s) := by
  rcases pushOrDup_cases h with ⟨t, rfl⟩ | ⟨n, rfl⟩
  · cases t <;> simp [pureItem]
  · simp only [pureItem, evmOp, Option.ite_none_right_eq_some, Option.map_eq_some_iff, List.cons.injEq, and_true]
    rintro ⟨hn, y, hy, rfl⟩
    refine ⟨hn, ?_⟩
    have : n ≠ 1 := fun e => h1 (by rw [e])
    obtain ⟨m, rfl⟩ : ∃ m, n = m + 2 := ⟨n - 2, by omega⟩
    simpa using hy

theorem not_inv {s s' : Stack} (h : evmOp .not s = some s') : ∃ x t, s = .word x :: t ∧ s' = .word (~~~ x) :: t := by
  match s with
  | [] => simp [evmOp] at h
  | .addr l :: t => simp [evmOp] at h
  | [.word x] => exact ⟨x, [], rfl, by simpa [evmOp, evmUnary, eq_comm] using h⟩
  | .word x :: .word y :: t => exact ⟨x, _, rfl, by simpa [evmOp, evmUnary, eq_comm] using h⟩
  | .word x :: .addr y :: t => exact ⟨x, _, rfl, by simpa [evmOp, evmUnary, eq_comm] using h⟩

theorem not_eval (x : Word) (t : Stack) : evmOp .not (.word x :: t) = some (.word (~~~ x) :: t) := by
  match t with
  | [] => rfl
  | .word y :: t => rfl
  | .addr y :: t => rfl

theorem deMorgan_sound : SoundRule (fun c => .op (.dup 1) ∉ c ∨ .op .not ∉ c ∨ (.op .and ∉ c ∧ .op .or ∉ c)) deMorgan := by
  intro P v r S h hc
  obtain ⟨a, b, f, g, rfl, rfl, ha, hb, hfg⟩ := deMorgan_some h
  have hb1 : b ≠ .op (.dup 1) := by
    rintro rfl
    rcases hfg with ⟨rfl, rfl⟩ | ⟨rfl, rfl⟩ <;> simp at hc
  have hpf : isPure (.op f) = true := by rcases hfg with ⟨rfl, rfl⟩ | ⟨rfl, rfl⟩ <;> rfl
  have hpg : isPure (.op g) = true := by rcases hfg with ⟨rfl, rfl⟩ | ⟨rfl, rfl⟩ <;> rfl
  have hpn : isPure (.op .not) = true := rfl
  apply preserves_pures
  · simp [pushOrDup_pure ha, pushOrDup_pure hb, hpf, hpn]
  · simp [pushOrDup_pure ha, pushOrDup_pure hb, hpg, hpn]
  · simp
  · intro s s' hs
    simp only [pures, Option.bind_eq_some_iff, Option.some.injEq] at hs
    obtain ⟨s1, h1, s2, h2, s3, h3, s4, h4, s5, h5, rfl⟩ := hs
    obtain ⟨x, rfl⟩ := pushOrDup_effect ha h1
    obtain ⟨wx, t, e, rfl⟩ := not_inv h2
    cases e
    obtain ⟨y, rfl⟩ := pushOrDup_effect hb h3
    obtain ⟨wy, t', e, rfl⟩ := not_inv h4
    cases e
    have h3' := pushOrDup_top hb hb1 _ (.word wx) h3
    simp only [pures, h1, Option.bind_some, h3']
    rcases hfg with ⟨rfl, rfl⟩ | ⟨rfl, rfl⟩
    · have e5 : s5 = .word (~~~ wy &&& ~~~ wx) :: s := by simpa [pureItem, evmOp, evmUnary, evmBinary, eq_comm] using h5
      have eo : pureItem (.op .or) (.word wy :: .word wx :: s) = some (.word (wy ||| wx) :: s) := rfl
      rw [eo, Option.bind_some]
      show (evmOp .not _).bind _ = _
      rw [not_eval, e5, ← BitVec.not_or]
      rfl
    · have e5 : s5 = .word (~~~ wy ||| ~~~ wx) :: s := by simpa [pureItem, evmOp, evmUnary, evmBinary, eq_comm] using h5
      have eo : pureItem (.op .and) (.word wy :: .word wx :: s) = some (.word (wy &&& wx) :: s) := rfl
      rw [eo, Option.bind_some]
      show (evmOp .not _).bind _ = _
      rw [not_eval, e5, ← BitVec.not_and]
      rfl

theorem SoundRule.weaken {C D : List Item → Prop} {rule : Rule} (h : SoundRule C rule) (hd : ∀ c, D c → C c) : SoundRule D rule :=
  fun P v r S e c => h P v r S e (hd _ c)

/-- All rules are sound for guarded programs. -/
theorem sound : ∀ p ∈ passes, SoundRule Guard p.rule := by
  apply passes_induct (C := fun _ rule => SoundRule Guard rule)
  · exact sound_ifBetter (foldUnary_sound.weaken (fun _ _ => trivial))
  · exact sound_ifBetter (foldBinary_sound.weaken (fun _ h => h.byte))
  · exact identity_sound.weaken (fun _ _ => trivial)
  · exact noOpJump_sound.weaken (fun _ h => h.labels)
  · exact swappedPushes_sound.weaken (fun _ _ => trivial)
  · exact swapCommutative_sound.weaken (fun _ _ => trivial)
  · exact ignoredValue_sound.weaken (fun _ _ => trivial)
  · exact deMorgan_sound.weaken (fun _ h => h.morgan)

end Verif.Kernel
