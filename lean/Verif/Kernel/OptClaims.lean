import Verif.Kernel.Rules

/-!
# C44, C45: the optimizer preserves behaviour, terminates and never grows code
-/
namespace Verif.Kernel

/-! ## Passes -/

theorem split_window (v : List Item) (start W : Nat) :
    v = v.take start ++ (v.drop start).take W ++ v.drop (start + W) := by
  rw [List.append_assoc, ← List.drop_drop, List.take_append_drop, List.take_append_drop]

theorem replaceWindows_sound {C : List Item → Prop} {W : Nat} {rule : Rule} (hs : SoundRule C rule)
    (hk : ∀ P v r S, rule v = .ok (some r) → C (P ++ v ++ S) → C (P ++ r ++ S)) :
    ∀ (fuel start : Nat) (v v' : List Item), replaceWindows W rule fuel start v = some (.ok v') → C v → Preserves v v' ∧ C v' := by
  intro fuel
  induction fuel with
  | zero => intro start v v' h; simp [replaceWindows] at h
  | succ fuel ih =>
    intro start v v' h hc
    simp only [replaceWindows] at h
    split at h
    · split at h
      · simp at h
      · rename_i r e
        have hv := split_window v start W
        have hc' : C (v.take start ++ (v.drop start).take W ++ v.drop (start + W)) := by rw [← hv]; exact hc
        have h1 := hs _ _ r _ e hc'
        rw [← hv] at h1
        obtain ⟨h2, h3⟩ := ih _ _ v' h (hk _ _ r _ e hc')
        exact ⟨h1.trans h2, h3⟩
      · exact ih _ _ v' h hc
    · simp only [Option.some.injEq, Except.ok.injEq] at h
      subst h
      exact ⟨Preserves.refl _, hc⟩

theorem guard_keep {rule : Rule} (h : Keep rule) (P v r S : List Item) (e : rule v = .ok (some r)) (g : Guard (P ++ v ++ S)) :
    Guard (P ++ r ++ S) := g.replace (h v r e)

theorem runPasses_sound (fuel : Nat) : ∀ (ps : List Pass), (∀ p ∈ ps, p ∈ passes) → ∀ (v v' : List Item),
    runPasses fuel ps v = some (.ok v') → Guard v → Preserves v v' ∧ Guard v' := by
  intro ps
  induction ps with
  | nil =>
    intro _ v v' h g
    simp only [runPasses, Option.some.injEq, Except.ok.injEq] at h
    subst h
    exact ⟨Preserves.refl _, g⟩
  | cons p ps ih =>
    intro hp v v' h g
    simp only [runPasses] at h
    split at h
    · simp at h
    · simp at h
    · rename_i u e
      have hm := hp p List.mem_cons_self
      obtain ⟨h1, g1⟩ := replaceWindows_sound (sound p hm) (guard_keep (keeps p hm)) fuel 0 v u e g
      obtain ⟨h2, g2⟩ := ih (fun q hq => hp q (List.mem_cons_of_mem _ hq)) u v' h g1
      exact ⟨h1.trans h2, g2⟩

theorem optimizeLoop_sound (fuel : Nat) : ∀ (n : Nat) (v v' : List Item), optimizeLoop fuel n v = some (.ok v') → Guard v →
    Preserves v v' ∧ Guard v' := by
  intro n
  induction n with
  | zero => intro v v' h; simp [optimizeLoop] at h
  | succ n ih =>
    intro v v' h g
    simp only [optimizeLoop] at h
    split at h
    · simp at h
    · simp at h
    · rename_i u e
      obtain ⟨h1, g1⟩ := runPasses_sound fuel passes (fun _ hp => hp) v u e g
      split at h
      · simp only [Option.some.injEq, Except.ok.injEq] at h
        subst h; exact ⟨h1, g1⟩
      · obtain ⟨h2, g2⟩ := ih u v' h g1
        exact ⟨h1.trans h2, g2⟩

/-! ## C44 -/

/-- What the assembler asserts about labels (`assembler.rs`, `find_labels`): no two local labels and no two global labels of one name. -/
def UniqueLabels (code : List Item) : Prop :=
  ∀ d, d ∈ code → (∃ l, d = .localLabel l ∨ d = .globalLabel l) → code.count d = 1

/-- C44: whatever the optimizer makes of a program does what the program does. -/
def C44_statement : Prop :=
  ∀ (code code' : List Item) (fuel : Nat), UniqueLabels code → optimize fuel code = some (.ok code') → Preserves code code'

/-- C44, for programs in which no name is declared twice, BYTE does not occur, and DUP1, NOT and AND (or OR) do not occur together.
Missing: constant propagation is wrong for BYTE, De Morgan's rule for DUP1 (see below). -/
theorem C44_optimizer_partial (code code' : List Item) (fuel : Nat) (g : Guard code) (h : optimize fuel code = some (.ok code')) :
    Preserves code code' := (optimizeLoop_sound fuel fuel code code' h g).1

/-- A single pass over programs of any kind: all rules but constant propagation of BYTE and De Morgan's with DUP1 are correct
wherever they apply. -/
theorem C44_passes_partial (fuel : Nat) (code code' : List Item) :
    (replaceWindows 2 (ifBetter foldUnary) fuel 0 code = some (.ok code') → Preserves code code') ∧
    (.op .byte ∉ code → replaceWindows 3 (ifBetter foldBinary) fuel 0 code = some (.ok code') → Preserves code code') ∧
    (replaceWindows 2 identityRule fuel 0 code = some (.ok code') → Preserves code code') ∧
    ((declared code).Nodup → replaceWindows 3 noOpJump fuel 0 code = some (.ok code') → Preserves code code') ∧
    (replaceWindows 3 swappedPushes fuel 0 code = some (.ok code') → Preserves code code') ∧
    (replaceWindows 2 swapCommutative fuel 0 code = some (.ok code') → Preserves code code') ∧
    (replaceWindows 2 ignoredValue fuel 0 code = some (.ok code') → Preserves code code') := by
  have all : ∀ P v r S : List Item, ∀ rule : Rule, rule v = .ok (some r) → True → True := fun _ _ _ _ _ _ h => h
  refine ⟨fun h => ?_, fun c h => ?_, fun h => ?_, fun c h => ?_, fun h => ?_, fun h => ?_, fun h => ?_⟩
  · exact (replaceWindows_sound (sound_ifBetter foldUnary_sound) (fun _ _ _ _ _ h => h) fuel 0 code code' h trivial).1
  · refine (replaceWindows_sound (sound_ifBetter foldBinary_sound) (fun P v r S e hc => ?_) fuel 0 code code' h c).1
    have hb := ((keeps ⟨3, ifBetter foldBinary⟩ (by simp [passes])) v r e).byte
    simp only [List.mem_append, not_or] at hc ⊢
    exact ⟨⟨hc.1.1, fun h => hc.1.2 (hb h)⟩, hc.2⟩
  · exact (replaceWindows_sound identity_sound (fun _ _ _ _ _ h => h) fuel 0 code code' h trivial).1
  · refine (replaceWindows_sound noOpJump_sound (fun P v r S e hc => ?_) fuel 0 code code' h c).1
    have hb := ((keeps ⟨3, noOpJump⟩ (by simp [passes])) v r e).labels
    rw [declared_append, declared_append] at hc ⊢
    rw [hb]; exact hc
  · exact (replaceWindows_sound swappedPushes_sound (fun _ _ _ _ _ h => h) fuel 0 code code' h trivial).1
  · exact (replaceWindows_sound swapCommutative_sound (fun _ _ _ _ _ h => h) fuel 0 code code' h trivial).1
  · exact (replaceWindows_sound ignoredValue_sound (fun _ _ _ _ _ h => h) fuel 0 code code' h trivial).1

/-- A machine without further instructions. -/
def noExt : Item → Unit → Stack → Step Unit := fun _ _ _ => .fault

theorem not_preserves {code code' : List Item} {n m : Nat} {s a b : Stack} (h : run noExt code n code s () = some (some (.fell a ())))
    (h' : run noExt code' m code' s () = some (some (.fell b ()))) (hab : a ≠ b) : ¬ Preserves code code' := by
  intro hp
  obtain ⟨rest, hr, k, hk⟩ := (hp Unit noExt none s ()).1 _ ⟨code, rfl, n, h⟩
  cases hr
  have := run_unique hk h'
  simp only [Option.some.injEq, Outcome.fell.injEq, and_true] at this
  exact hab this

def byteCode : List Item := [.push (.literal 0x1234), .push (.literal 31), .op .byte]

/-- The least significant byte of 0x1234 is computed to be 0, where the EVM gives 0x34: `byte` of `U256` counts from the other end. -/
theorem C44_violated_byte : UniqueLabels byteCode ∧ optimize 20 byteCode = some (.ok [.push (.literal 0)]) ∧
    ¬ Preserves byteCode [.push (.literal 0)] := by
  refine ⟨?_, by decide +kernel, ?_⟩
  · rintro d hd ⟨l, rfl | rfl⟩ <;> simp [byteCode] at hd
  · refine not_preserves (n := 4) (m := 2) (s := []) (a := [.word 0x34]) (b := [.word 0]) ?_ ?_ (by decide)
    · rfl
    · rfl

def morganCode : List Item := [.push (.literal 5), .op .not, .op (.dup 1), .op .not, .op .and]

/-- `¬5 & ¬¬5` is 0, the optimized code computes `¬(5 | 5)`. -/
theorem C44_violated_de_morgan : UniqueLabels morganCode ∧
    optimize 40 morganCode = some (.ok [.push (.literal 5), .op (.dup 1), .op .or, .op .not]) ∧
    ¬ Preserves morganCode [.push (.literal 5), .op (.dup 1), .op .or, .op .not] := by
  refine ⟨?_, by decide +kernel, ?_⟩
  · rintro d hd ⟨l, rfl | rfl⟩ <;> simp [morganCode] at hd
  · refine not_preserves (n := 6) (m := 5) (s := []) (a := [.word 0]) (b := [.word (~~~ 5)]) ?_ ?_ (by decide)
    · rfl
    · rfl

def clashCode : List Item := [.push (.label "l"), .op .jump, .globalLabel "l", .push (.literal 1), .localLabel "l"]

/-- A name may be declared once as a local and once as a global label. The jump goes to the local label; the optimizer
removes it in front of the global one. -/
theorem C44_violated_labels : UniqueLabels clashCode ∧
    optimize 40 clashCode = some (.ok [.globalLabel "l", .push (.literal 1), .localLabel "l"]) ∧
    ¬ Preserves clashCode [.globalLabel "l", .push (.literal 1), .localLabel "l"] := by
  refine ⟨?_, by decide +kernel, ?_⟩
  · rintro d hd ⟨l, rfl | rfl⟩ <;> simp [clashCode] at hd <;> subst hd <;> decide
  · refine not_preserves (n := 3) (m := 4) (s := []) (a := []) (b := [.word 1]) ?_ ?_ (by decide)
    · rfl
    · rfl

theorem C44_violated : ¬ C44_statement := fun h =>
  C44_violated_byte.2.2 (h _ _ 20 C44_violated_byte.1 C44_violated_byte.2.1)

/-- A program with a loop, to which every rule but De Morgan's applies. -/
def sample : List Item :=
  [.push (.literal 3), .op .iszero, .op .pop,
   .globalLabel "loop", .op (.dup 2), .op (.dup 2), .op (.swap 1), .op .add, .push (.literal 0), .op .add,
   .push (.label "next"), .op .jump, .localLabel "next",
   .push (.literal 5), .push (.literal 2), .op (.swap 1), .op .sub, .op .pop,
   .push (.literal 7), .push (.literal 8), .op .mul,
   .push (.label "loop"), .op .jumpi]

theorem sample_guard : Guard sample := ⟨by decide, by decide, .inl (by decide)⟩

theorem sample_optimized : optimize 200 sample =
    some (.ok [.globalLabel "loop", .op (.dup 2), .op (.dup 2), .op .add, .localLabel "next",
      .push (.literal 56), .push (.label "loop"), .op .jumpi]) := by decide +kernel

example : Preserves sample [.globalLabel "loop", .op (.dup 2), .op (.dup 2), .op .add, .localLabel "next",
      .push (.literal 56), .push (.label "loop"), .op .jumpi] :=
  C44_optimizer_partial _ _ 200 sample_guard sample_optimized

/-- De Morgan's rule where it is correct. -/
def sample2 : List Item := [.op (.dup 3), .op .not, .push (.label "here"), .op .pop, .op (.dup 2), .op .not, .op .or]

example : Guard sample2 ∧ optimize 100 sample2 = some (.ok [.op (.dup 3), .op (.dup 2), .op .and, .op .not]) :=
  ⟨⟨by decide, by decide, .inl (by decide)⟩, by decide +kernel⟩

/-! ## C45 -/

/-- The steps one pass may need. -/
theorem replaceWindows_ends {W : Nat} {rule : Rule} (hW : 0 < W) (hs : Shrinks rule) :
    ∀ (fuel start : Nat) (v : List Item), start ≤ v.length → (W + 1) * v.length - start < fuel →
    ∃ r, replaceWindows W rule fuel start v = some r ∧ ∀ c, r = .ok c → c = v ∨ c.length < v.length := by
  intro fuel
  induction fuel with
  | zero => intro start v _ h; omega
  | succ fuel ih =>
    intro start v hle h
    simp only [replaceWindows]
    split
    · rename_i hw
      split
      · exact ⟨_, rfl, fun c hc => by simp at hc⟩
      · rename_i r e
        have hr := hs _ _ e
        have hlen : ((v.drop start).take W).length = W := by simp; omega
        rw [hlen] at hr
        have hl : (v.take start ++ r ++ v.drop (start + W)).length = v.length - W + r.length := by simp; omega
        obtain ⟨x, hx, hc⟩ := ih (start - (W - 1)) (v.take start ++ r ++ v.drop (start + W)) (by omega) (by
          rw [hl]
          have : (W + 1) * (v.length - W + r.length) + (W + 1) ≤ (W + 1) * v.length := by
            rw [← Nat.mul_succ]
            exact Nat.mul_le_mul_left _ (by omega)
          have : v.length ≤ (W + 1) * v.length := Nat.le_mul_of_pos_left _ (by omega)
          omega)
        refine ⟨x, hx, fun c e => .inr ?_⟩
        rcases hc c e with rfl | h'
        · omega
        · omega
      · have : v.length ≤ (W + 1) * v.length := Nat.le_mul_of_pos_left _ (by omega)
        exact ih (start + 1) v (by omega) (by omega)
    · exact ⟨_, rfl, fun c hc => .inl (by simpa [eq_comm] using hc)⟩

theorem replaceWindows_mono {W : Nat} {rule : Rule} : ∀ (fuel start : Nat) (v : List Item) {r} (k : Nat),
    replaceWindows W rule fuel start v = some r → replaceWindows W rule (fuel + k) start v = some r := by
  intro fuel
  induction fuel with
  | zero => intro start v r k h; simp [replaceWindows] at h
  | succ fuel ih =>
    intro start v r k h
    rw [Nat.add_right_comm]
    simp only [replaceWindows] at h ⊢
    split
    · rw [if_pos ‹_›] at h
      split
      · rename_i e; rw [e] at h; exact h
      · rename_i e; rw [e] at h; exact ih _ _ k h
      · rename_i e; rw [e] at h; exact ih _ _ k h
    · rw [if_neg ‹_›] at h; exact h

theorem width_pos : ∀ p ∈ passes, 0 < p.width ∧ p.width ≤ 5 := by
  apply passes_induct (C := fun W _ => 0 < W ∧ W ≤ 5) <;> decide

theorem runPasses_ends : ∀ (ps : List Pass), (∀ p ∈ ps, p ∈ passes) → ∀ (v : List Item) (N : Nat), v.length ≤ N →
    ∃ r, (∀ fuel, 6 * N < fuel → runPasses fuel ps v = some r) ∧ ∀ c, r = .ok c → c = v ∨ c.length < v.length := by
  intro ps
  induction ps with
  | nil => intro _ v N _; exact ⟨.ok v, fun _ _ => rfl, fun c hc => .inl (by simpa [eq_comm] using hc)⟩
  | cons p ps ih =>
    intro hp v N hN
    have hm := hp p List.mem_cons_self
    obtain ⟨hw, hw5⟩ := width_pos p hm
    have hb : (p.width + 1) * v.length ≤ 6 * N := Nat.mul_le_mul (by omega) hN
    obtain ⟨r, hr, hc⟩ := replaceWindows_ends hw (shrinks p hm) (6 * N + 1) 0 v (Nat.zero_le _) (by omega)
    have hall : ∀ fuel, 6 * N < fuel → replaceWindows p.width p.rule fuel 0 v = some r := by
      intro fuel hf
      obtain ⟨k, rfl⟩ : ∃ k, fuel = 6 * N + 1 + k := ⟨fuel - (6 * N + 1), by omega⟩
      exact replaceWindows_mono _ _ _ k hr
    cases r with
    | error e =>
      refine ⟨.error e, fun fuel hf => ?_, fun c h => by simp at h⟩
      simp only [runPasses, hall fuel hf]
    | ok u =>
      have hu := hc u rfl
      have hle : u.length ≤ v.length := by
        rcases hu with rfl | h
        · exact Nat.le_refl _
        · omega
      obtain ⟨x, hx, hxc⟩ := ih (fun q hq => hp q (List.mem_cons_of_mem _ hq)) u N (by omega)
      refine ⟨x, fun fuel hf => ?_, fun c h => ?_⟩
      · simp only [runPasses, hall fuel hf]; exact hx fuel hf
      · rcases hxc c h with rfl | h'
        · exact hu
        · exact .inr (by omega)

theorem optimizeLoop_ends : ∀ (n : Nat) (v : List Item) (N : Nat), v.length ≤ N → v.length < n →
    ∃ r, (∀ m fuel, n ≤ m → 6 * N < fuel → optimizeLoop fuel m v = some r) ∧
      ∀ c, r = .ok c → c.length ≤ v.length ∧ ∀ fuel, 6 * N < fuel → runPasses fuel passes c = some (.ok c) := by
  intro n
  induction n with
  | zero => intro v N _ h; omega
  | succ n ih =>
    intro v N hN hn
    obtain ⟨r, hr, hc⟩ := runPasses_ends passes (fun _ h => h) v N hN
    cases r with
    | error e =>
      refine ⟨.error e, fun m fuel hm hf => ?_, fun c h => by simp at h⟩
      obtain ⟨m, rfl⟩ : ∃ k, m = k + 1 := ⟨m - 1, by omega⟩
      simp only [optimizeLoop, hr fuel hf]
    | ok u =>
      by_cases e : u = v
      · refine ⟨.ok u, fun m fuel hm hf => ?_, fun c h => ?_⟩
        · obtain ⟨m, rfl⟩ : ∃ k, m = k + 1 := ⟨m - 1, by omega⟩
          simp only [optimizeLoop, hr fuel hf, if_pos e]
        · cases h
          subst e
          exact ⟨Nat.le_refl _, hr⟩
      · have hlt : u.length < v.length := (hc u rfl).resolve_left e
        obtain ⟨x, hx, hxc⟩ := ih u N (by omega) (by omega)
        refine ⟨x, fun m fuel hm hf => ?_, fun c h => ⟨?_, (hxc c h).2⟩⟩
        · obtain ⟨m, rfl⟩ : ∃ k, m = k + 1 := ⟨m - 1, by omega⟩
          simp only [optimizeLoop, hr fuel hf, if_neg e]
          exact hx m fuel (by omega) hf
        · have := (hxc c h).1; omega

/-- C45: the optimizer ends with a program that is not longer. -/
def C45_statement : Prop :=
  ∀ code : List Item, ∃ code', (∃ N, ∀ fuel, N < fuel → optimize fuel code = some (.ok code')) ∧ code'.length ≤ code.length

/-- The optimizer ends on every program, after at most `len + 1` rounds of passes of at most `6 * len + 1` steps. It ends with a panic
or with a program that is not longer and on which it does nothing more. Missing for C45: the panic (see below). -/
theorem C45_terminates_partial (code : List Item) :
    ∃ r, (∀ fuel, 6 * code.length + 1 < fuel → optimize fuel code = some r) ∧
      ∀ code', r = .ok code' → code'.length ≤ code.length ∧
        ∀ fuel, 6 * code.length + 1 < fuel → optimize fuel code' = some (.ok code') := by
  obtain ⟨r, hr, hc⟩ := optimizeLoop_ends (code.length + 1) code code.length (Nat.le_refl _) (by omega)
  refine ⟨r, fun fuel hf => hr fuel fuel (by omega) (by omega), fun code' h => ⟨(hc code' h).1, fun fuel hf => ?_⟩⟩
  have := (hc code' h).2 fuel (by omega)
  obtain ⟨m, rfl⟩ : ∃ m, fuel = m + 1 := ⟨fuel - 1, by omega⟩
  unfold optimize
  simp only [optimizeLoop, this, if_true]

/-- A panic needs a shift. -/
def NoShift (code : List Item) : Prop := .op .shl ∉ code ∧ .op .shr ∉ code

theorem cost_some {r : List Item} (h : ∀ i ∈ r, isPure i = true) : ∃ a, cost r = some a := by
  induction r with
  | nil => exact ⟨0, rfl⟩
  | cons i r ih =>
    obtain ⟨b, hb⟩ := ih (fun j hj => h j (List.mem_cons_of_mem _ hj))
    obtain ⟨a, ha⟩ : ∃ a, costItem i = some a := by
      have hi := h i List.mem_cons_self
      cases i with
      | push t => cases t <;> exact ⟨_, rfl⟩
      | op o => exact ⟨_, rfl⟩
      | _ => simp [isPure] at hi
    exact ⟨a + b, by simp [cost, ha, hb]⟩

/-- What a rule looks at does not panic. -/
def Calm (rule : Rule) : Prop := ∀ v, NoShift v → ∃ r, rule v = .ok r

theorem calm_ifBetter {rule : Rule} (h : Calm rule)
    (hp : ∀ v r, NoShift v → rule v = .ok (some r) → (∃ a, cost v = some a) ∧ ∃ a, cost r = some a) : Calm (ifBetter rule) := by
  intro v hv
  obtain ⟨r, hr⟩ := h v hv
  unfold ifBetter
  rw [hr]
  cases r with
  | none => exact ⟨_, rfl⟩
  | some r =>
    obtain ⟨⟨a, ha⟩, b, hb⟩ := hp v r hv hr
    simp only [improved, ha, hb, Option.bind_some, Option.map_some]
    cases decide (b < a) <;> exact ⟨_, rfl⟩

theorem calm : ∀ p ∈ passes, Calm p.rule := by
  apply passes_induct (C := fun _ rule => Calm rule)
  · apply calm_ifBetter
    · intro v _; unfold foldUnary; split <;> exact ⟨_, rfl⟩
    · intro v r _ h
      obtain ⟨x, o, z, rfl, rfl, hz⟩ := foldUnary_some h
      exact ⟨⟨_, rfl⟩, ⟨_, rfl⟩⟩
  · apply calm_ifBetter
    · intro v hv; unfold foldBinary; split
      · rename_i y x o
        have hne : o ≠ .shl ∧ o ≠ .shr := by
          constructor <;> rintro rfl
          · exact hv.1 (by simp)
          · exact hv.2 (by simp)
        have : ∃ z, foldTable o x.toNat y.toNat = .ok z := by
          cases o <;> first | exact ⟨_, rfl⟩ | simp at hne
        obtain ⟨z, hz⟩ := this
        rw [hz]
        cases z <;> exact ⟨_, rfl⟩
      · exact ⟨_, rfl⟩
    · intro v r _ h
      obtain ⟨x, y, o, z, rfl, rfl, _⟩ := foldBinary_some h
      exact ⟨⟨_, rfl⟩, ⟨_, rfl⟩⟩
  · intro v _; unfold identityRule; split <;> exact ⟨_, rfl⟩
  · intro v _; unfold noOpJump; split <;> exact ⟨_, rfl⟩
  · intro v _; unfold swappedPushes; split <;> exact ⟨_, rfl⟩
  · intro v _; unfold swapCommutative; split <;> exact ⟨_, rfl⟩
  · intro v _; unfold ignoredValue; split <;> exact ⟨_, rfl⟩
  · intro v _; unfold deMorgan; split <;> exact ⟨_, rfl⟩

theorem NoShift.replace {P v r S : List Item} (h : NoShift (P ++ v ++ S)) (k : Keeps v r) : NoShift (P ++ r ++ S) := by
  have := k.shift
  unfold NoShift at h ⊢
  simp only [List.mem_append, not_or] at h ⊢
  grind

theorem NoShift.sub {P v S : List Item} (h : NoShift (P ++ v ++ S)) : NoShift v := by
  unfold NoShift at h ⊢
  simp only [List.mem_append, not_or] at h
  exact ⟨h.1.1.2, h.2.1.2⟩

theorem replaceWindows_calm {W : Nat} {rule : Rule} (hk : Keep rule) (hc : Calm rule) :
    ∀ (fuel start : Nat) (v : List Item) {r}, NoShift v → replaceWindows W rule fuel start v = some r → ∃ u, r = .ok u ∧ NoShift u := by
  intro fuel
  induction fuel with
  | zero => intro start v r _ h; simp [replaceWindows] at h
  | succ fuel ih =>
    intro start v r hv h
    have hs := split_window v start W
    have hv' : NoShift (v.take start ++ (v.drop start).take W ++ v.drop (start + W)) := by rw [← hs]; exact hv
    simp only [replaceWindows] at h
    split at h
    · split at h
      · rename_i e he
        obtain ⟨x, hx⟩ := hc _ hv'.sub
        rw [hx] at he; simp at he
      · rename_i x he
        exact ih _ _ (hv'.replace (hk _ _ he)) h
      · exact ih _ _ hv h
    · simp only [Option.some.injEq] at h
      exact ⟨v, h.symm, hv⟩

theorem runPasses_calm (fuel : Nat) : ∀ (ps : List Pass), (∀ p ∈ ps, p ∈ passes) → ∀ (v : List Item) {r}, NoShift v →
    runPasses fuel ps v = some r → ∃ u, r = .ok u ∧ NoShift u := by
  intro ps
  induction ps with
  | nil => intro _ v r hv h; exact ⟨v, by simpa [runPasses, eq_comm] using h, hv⟩
  | cons p ps ih =>
    intro hp v r hv h
    have hm := hp p List.mem_cons_self
    simp only [runPasses] at h
    split at h
    · simp at h
    · rename_i e he
      obtain ⟨u, hu, _⟩ := replaceWindows_calm (keeps p hm) (calm p hm) _ _ _ hv he
      simp at hu
    · rename_i u he
      obtain ⟨u', hu, hn⟩ := replaceWindows_calm (keeps p hm) (calm p hm) _ _ _ hv he
      cases hu
      exact ih (fun q hq => hp q (List.mem_cons_of_mem _ hq)) u hn h

theorem optimizeLoop_calm (fuel : Nat) : ∀ (n : Nat) (v : List Item) {r}, NoShift v → optimizeLoop fuel n v = some r → ∃ u, r = .ok u := by
  intro n
  induction n with
  | zero => intro v r _ h; simp [optimizeLoop] at h
  | succ n ih =>
    intro v r hv h
    simp only [optimizeLoop] at h
    split at h
    · simp at h
    · rename_i e he
      obtain ⟨u, hu, _⟩ := runPasses_calm fuel passes (fun _ h => h) v hv he
      simp at hu
    · rename_i u he
      obtain ⟨u', hu, hn⟩ := runPasses_calm fuel passes (fun _ h => h) v hv he
      cases hu
      split at h
      · exact ⟨u, by simpa [eq_comm] using h⟩
      · exact ih u hn h

/-- C45 for programs without SHL and SHR. -/
theorem C45_no_panic_partial (code : List Item) (h : NoShift code) :
    ∃ code', (∃ N, ∀ fuel, N < fuel → optimize fuel code = some (.ok code')) ∧ code'.length ≤ code.length := by
  obtain ⟨r, hr, hc⟩ := C45_terminates_partial code
  obtain ⟨code', rfl⟩ := optimizeLoop_calm (6 * code.length + 2) (6 * code.length + 2) code h (hr _ (by omega))
  exact ⟨code', ⟨_, hr⟩, (hc code' rfl).1⟩

/-- Shifting a constant by a constant of 2^64 or more makes the optimizer panic (the EVM's result is 0). -/
theorem C45_violated : ¬ C45_statement := by
  intro h
  obtain ⟨code', ⟨N, hN⟩, _⟩ := h [.push (.literal 1), .push (.literal (2 ^ 64)), .op .shl]
  obtain ⟨r, hr, _⟩ := C45_terminates_partial [.push (.literal 1), .push (.literal (2 ^ 64)), .op .shl]
  have e : optimize 30 [.push (.literal 1), .push (.literal (2 ^ 64)), .op .shl] = some (.error ()) := by decide +kernel
  rw [hr 30 (by decide)] at e
  have h1 := hN (N + 30) (by omega)
  rw [hr (N + 30) (by simp only [List.length]; omega)] at h1
  rw [h1] at e
  simp at e

example : NoShift sample := ⟨by decide, by decide⟩

end Verif.Kernel
