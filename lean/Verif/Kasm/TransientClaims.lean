import Verif.Kasm.Transient

/-!
C124: transient storage. TLOAD gives what the last TSTORE of the contract to the slot wrote, or zero; TSTORE changes that slot only; undoing it restores the slot.
That holds as long as no two neighbouring cells of different fields look like the address and the slot searched for: the search goes cell by cell, not entry by entry.
-/

namespace Verif.Kasm

variable {P : Prog} {S : List Nat} {w : World} {ret a k i K v slot : Nat} {js : List (List Nat)} {T : List (Nat × Nat × Nat)} {t : Nat → Nat → Nat}

/-! ### The specification -/

/-- No slot number and no value in transient storage is the number of the contract's address. -/
def TSafe (T : List (Nat × Nat × Nat)) (a : Nat) : Prop := ∀ e ∈ T, e.2.1 ≠ a ∧ e.2.2 ≠ a

instance (T : List (Nat × Nat × Nat)) (a : Nat) : Decidable (TSafe T a) := inferInstanceAs (Decidable (∀ e ∈ T, _))

theorem TSafe.clean (h : TSafe T a) : TClean w T a k := fun i e hi => by
  obtain ⟨h1, h2⟩ := h e (List.mem_of_getElem? hi)
  exact ⟨fun h => h1 h.1, fun h => h2 h.1⟩

/-- The user is in a state to do a system call that uses transient storage: `K` is where it came from and what it has spent, `t` the transient storage. -/
structure TranOk (P : Prog) (w : World) (K : Nat) (T : List (Nat × Nat × Nat)) (t : Nat → Nat → Nat) : Prop where
  code : P.Has transientCode
  serving : Serving w K
  words : Words w
  trans : TransAre w T t

/-- What TLOAD should do: the value of the slot, for 100 gas. -/
def C124_statement (P : Prog) : Prop := ∀ (w : World) (K slot : Nat) (S : List Nat) (T : List (Nat × Nat × Nat)) (t : Nat → Nat → Nat), TranOk P w K T t → slot < 2 ^ 256 →
  K / 2 ^ 192 + 100 ≤ w.gasLimit → Reaches P (.goto (P.addr "sys_tload") (K :: slot :: S) w) (.exit (K + 100 * 2 ^ 192) (t w.self slot :: S) w)

/-- What TSTORE should do: set the slot and leave every other slot of every contract as it is. -/
def C124_store_statement (P : Prog) : Prop := ∀ (w : World) (K slot v : Nat) (S : List Nat) (T : List (Nat × Nat × Nat)) (t : Nat → Nat → Nat) (js : List (List Nat)), TranOk P w K T t → JournalIs w js →
  3 * T.length + 6 ≤ 2 ^ 32 → w.mem jdatLen + 4 ≤ 2 ^ 32 → js.length < 2 ^ 32 → slot < 2 ^ 256 → v < 2 ^ 256 →
  w.mem (w.ctx * 2 ^ 64 + 0x600000008) = 0 → K / 2 ^ 192 + 100 ≤ w.gasLimit →
  ∃ w' T', Reaches P (.goto (P.addr "sys_tstore") (K :: slot :: v :: S) w) (.exit (K + 100 * 2 ^ 192) S w') ∧ TransAre w' T' (tset t w.self slot v)

/-! ### The theorems -/

/-- With the length at its initial value, as `%init_transient_storage_len` leaves it at the start of every transaction (`asm/main.asm:68` and `264`), every slot is zero whatever an earlier transaction left in the array. -/
theorem C124_start (h : w.mem tranLen = tranBase) : TransAre w [] fun _ _ => 0 :=
  ⟨⟨h, by decide, fun _ _ h => by simp at h, fun _ _ _ _ h => by simp at h⟩, fun _ _ => .inr ⟨fun _ _ h => by simp [TAt] at h, rfl⟩⟩

/-- TLOAD gives the value of the slot for 100 gas and changes nothing; without the gas it fails. -/
theorem C124_tload_partial (h : TranOk P w K T t) (hc : TClean w T w.self slot) :
    Reaches P (.goto (P.addr "sys_tload") (K :: slot :: S) w)
      (if K / 2 ^ 192 + 100 ≤ w.gasLimit then .exit (K + 100 * 2 ^ 192) (t w.self slot :: S) w else .goto (P.addr "fault_exception") ((K + 100 * 2 ^ 192) :: slot :: S) w) :=
  run_tload h.code h.serving h.words h.trans hc

/-- TSTORE costs 100 gas, sets the slot and no other, and logs the value before unless it is the same. Only the array and the journal change. -/
theorem C124_tstore_partial (h : TranOk P w K T t) (hc : TClean w T w.self slot) (hJ : JournalIs w js)
    (hr : 3 * T.length + 6 ≤ 2 ^ 32) (hd : w.mem jdatLen + 4 ≤ 2 ^ 32) (hj : js.length < 2 ^ 32) (hs : slot < 2 ^ 256) (hv : v < 2 ^ 256)
    (hstatic : w.mem (w.ctx * 2 ^ 64 + 0x600000008) = 0) (hg : K / 2 ^ 192 + 100 ≤ w.gasLimit) :
    ∃ w' T', Reaches P (.goto (P.addr "sys_tstore") (K :: slot :: v :: S) w) (.exit (K + 100 * 2 ^ 192) S w') ∧ TranOk P w' (K + 100 * 2 ^ 192) T' (tset t w.self slot v) ∧
      TPut T w.self slot v T' ∧
      JournalIs w' (js ++ if v = t w.self slot then [] else [[11, w.self, slot, t w.self slot]]) ∧
      w'.mem jdatLen ≤ w.mem jdatLen + 4 ∧ Keeps w w' (fun b => TranArea b ∨ JourArea b) := by
  obtain ⟨w', T', h1, h2, h3, h4, h5, h7, h6⟩ := run_tstore (S := S) h.code h.serving h.words h.trans hc hJ hr hd hj hs hv hstatic hg
  have hf : ∀ q, 0x600000000 ≤ q → q < 0x600000100 → w'.mem (w.ctx * 2 ^ 64 + q) = w.mem (w.ctx * 2 ^ 64 + q) := fun q h1 h2 => h6.2.2 _ (by
    simp only [TranArea, JourArea, jourLen, jdatLen, jourBase, jdatBase, tranBase, tranLen]; omega)
  have hgl : w'.gasLimit = w.gasLimit := by rw [World.gasLimit, World.gasLimit, h6.1]; exact hf _ (by omega) (by omega)
  exact ⟨w', T', h1, ⟨h.code, ⟨h6.1 ▸ h.serving.ctx, by rw [hgl]; omega, hgl ▸ h.serving.limit⟩, h2, h4⟩, h3, h5, h7, h6⟩

/-- In a static call, and without the gas for it, TSTORE fails and changes nothing. -/
theorem C124_refused (h : TranOk P w K T t) (hbad : w.mem (w.ctx * 2 ^ 64 + 0x600000008) ≠ 0 ∨ w.gasLimit < K / 2 ^ 192 + 100) :
    ∃ K', Reaches P (.goto (P.addr "sys_tstore") (K :: slot :: v :: S) w) (.goto (P.addr "fault_exception") (K' :: slot :: v :: S) w) :=
  run_tstore_refused h.code h.serving hbad

/-- Undoing the entry a TSTORE logged sets the slot back to the value logged, and no other. -/
theorem C124_undone_partial (hP : P.Has transientCode) (hw : Words w) (h : TransAre w T t) (hc : TClean w T a k) (he : EntryAt w i [11, a, k, v]) (ha : a < 2 ^ 256) (hv : v < 2 ^ 256)
    {j u : Nat} (hj : TAt T a k j u) :
    ∃ w' T', Reaches P (.goto (P.addr "revert_transient_storage_change") (11 :: i :: ret :: S) w) (.goto ret S w') ∧ Words w' ∧ TPut T a k v T' ∧ TransAre w' T' (tset t a k v) ∧ Keeps w w' TranArea :=
  run_undo_tstore hP hw h hc he ha hv hj

/-- What was stored can be loaded: the value after a store and its undoing is the one before. -/
theorem tset_tset (t : Nat → Nat → Nat) (a k v : Nat) : tset (tset t a k v) a k (t a k) = t := by
  funext b j
  simp only [tset]
  split
  · rename_i h; rw [h.1, h.2]
  · rfl

/-! ### Cases -/

/-- A kernel with this code. -/
def tranProg : Prog := tableProg transientCode List.sum

theorem tranProg_has : tranProg.Has transientCode := tableProg_has _ _ (by decide +kernel) (by decide +kernel) (by decide +kernel)

/-- Contexts 1, 2, 3 and 4 are those of the contracts 7, 8, 5 and 9, each with 100000 gas; transient storage is empty. -/
def tranWorld : World where
  ctx := 1
  inp := fun _ => 0
  mem := fun a => if a = tranLen then tranBase else
    if a = 1 * 2 ^ 64 + 0x600000004 then 7 else if a = 2 * 2 ^ 64 + 0x600000004 then 8 else if a = 3 * 2 ^ 64 + 0x600000004 then 5 else if a = 4 * 2 ^ 64 + 0x600000004 then 9 else
    if a % 2 ^ 64 = 0x60000000c then 100000 else 0

theorem tranWorld_words : Words tranWorld := fun a => by
  simp only [tranWorld, tranBase]
  repeat' split
  all_goals omega

/-- The same with the context `c`. -/
def World.at (w : World) (c : Nat) : World := { w with ctx := c }

/-- After 7 has stored 6 in its slot 5, and 8 has stored 1 in its slot 1. -/
def tranWorld2 : World := tgrow (tput (tgrow (tput tranWorld tranBase 7 5 6) tranBase) (tranBase + 3) 8 1 1) (tranBase + 3)

/-- What the contracts have stored. -/
def tran2 : Nat → Nat → Nat := tset (tset (fun _ _ => 0) 7 5 6) 8 1 1

theorem tranWorld2_are : TransAre tranWorld2 [(7, 5, 6), (8, 1, 1)] tran2 := by
  have h0 := C124_start (w := tranWorld) rfl
  have n1 : ∀ i u, ¬ TAt [] 7 5 i u := fun i u h => by simp [TAt] at h
  have h1 := h0.1.add (v := 6) n1 (by decide)
  have n2 : ∀ i u, ¬ TAt [(7, 5, 6)] 8 1 i u := fun i u h => by
    rcases i with _ | i <;> simp [TAt] at h
  have h2 := h1.add (v := 1) n2 (by decide)
  exact ⟨h2, TVal.put (.inr ⟨n2, rfl⟩) (TVal.put (.inr ⟨n1, rfl⟩) h0.2)⟩

theorem tranWorld2_words : Words tranWorld2 :=
  tgrow_words (tgrow_words tranWorld_words (by decide) (by omega) (by omega) (by omega)) (by decide) (by omega) (by omega) (by omega)

theorem tranWorld2_ok {c : Nat} (hc : c = 1 ∨ c = 2 ∨ c = 3 ∨ c = 4) : TranOk tranProg (tranWorld2.at c) 0 [(7, 5, 6), (8, 1, 1)] tran2 := by
  refine ⟨tranProg_has, ?_, tranWorld2_words, tranWorld2_are.1.congr fun _ _ => rfl, tranWorld2_are.2⟩
  rcases hc with rfl | rfl | rfl | rfl <;> exact ⟨by decide, by decide +kernel, by decide +kernel⟩

/-- A contract whose address is no slot and no value: the theorems apply to it. -/
example : TranOk tranProg (tranWorld2.at 2) 0 [(7, 5, 6), (8, 1, 1)] tran2 ∧ (tranWorld2.at 2).self = 8 ∧ TSafe [(7, 5, 6), (8, 1, 1)] 8 ∧ tran2 8 1 = 1 ∧ tran2 7 5 = 6 ∧
    (tranWorld2.at 2).mem ((tranWorld2.at 2).ctx * 2 ^ 64 + 0x600000008) = 0 ∧ 0 / 2 ^ 192 + 100 ≤ (tranWorld2.at 2).gasLimit ∧ JournalIs (tranWorld2.at 2) [] :=
  ⟨tranWorld2_ok (by omega), by decide +kernel, by decide, by decide, by decide, by decide +kernel, by decide +kernel, by decide +kernel, by decide, by decide +kernel, fun _ h => absurd h (by simp)⟩

/-- The journal entry of a store of 8 to its slot 1, and the store it undoes. -/
example : EntryAt (pushEntry tranWorld2 [11, 8, 1, 0]) 0 [11, 8, 1, 0] ∧ TAt [(7, 5, 6), (8, 1, 1)] 8 1 1 1 :=
  ⟨⟨by decide, fun j hj => by
    have : j = 0 ∨ j = 1 ∨ j = 2 ∨ j = 3 := by simp only [List.length_cons, List.length_nil] at hj; omega
    rcases this with rfl | rfl | rfl | rfl <;> decide +kernel⟩, rfl⟩

/-- The stack the user is left with. -/
def Out.given : Out → Option (List Nat)
  | .exit _ s _ => some s
  | _ => none

/-- The state then. -/
def Out.world : Out → World
  | .exit _ _ w => w
  | _ => tranWorld

/-- What a cell holds then. -/
def Out.holds (o : Out) (a : Nat) : Option Nat :=
  match o with
  | .exit _ _ w => some (w.mem a)
  | _ => none

/-- What a store of the contract in context `c` leads to. -/
theorem tran_store {c slot v : Nat} (hc : c = 1 ∨ c = 2 ∨ c = 3 ∨ c = 4) {js : List (List Nat)} (hw : Words w) (hT : TransAre w T t) (hJ : JournalIs w js) (hs : slot < 2 ^ 256) (hv : v < 2 ^ 256)
    (hm : ∀ b, 2 ^ 64 ≤ b → w.mem b = tranWorld.mem b) (hcl : TClean w T (w.at c).self slot) (hr : 3 * T.length + 6 ≤ 2 ^ 32) (hd : w.mem jdatLen + 4 ≤ 2 ^ 32) (hj : js.length < 2 ^ 32) :
    ∃ w' T' js', Reaches tranProg (.goto (tranProg.addr "sys_tstore") [0, slot, v] (w.at c)) (.exit (100 * 2 ^ 192) [] w') ∧ Words w' ∧ TPut T (w.at c).self slot v T' ∧
      TransAre w' T' (tset t (w.at c).self slot v) ∧ JournalIs w' js' ∧ js'.length ≤ js.length + 1 ∧ w'.mem jdatLen ≤ w.mem jdatLen + 4 ∧ (∀ b, 2 ^ 64 ≤ b → w'.mem b = tranWorld.mem b) := by
  have hl : (w.at c).gasLimit = 100000 := by
    rw [World.gasLimit, show (w.at c).mem = w.mem from rfl, show (w.at c).ctx = c from rfl, hm _ (by omega)]
    rcases hc with rfl | rfl | rfl | rfl <;> decide +kernel
  obtain ⟨w', T', h1, h2, h3, h4, h5, h7, h6⟩ := run_tstore (S := []) (K := 0) (w := w.at c) tranProg_has ⟨by rw [show (w.at c).ctx = c from rfl]; omega, by omega, by omega⟩ hw
    ⟨hT.1.congr fun _ _ => rfl, hT.2⟩ hcl (hJ.congr fun _ _ => rfl) hr hd hj hs hv
    (by rw [show (w.at c).mem = w.mem from rfl, show (w.at c).ctx = c from rfl, hm _ (by omega)]; rcases hc with rfl | rfl | rfl | rfl <;> decide +kernel) (by omega)
  refine ⟨w', T', _, by simpa using h1, h2, h3, h4, h5, ?_, h7, fun b hb => ?_⟩
  · rw [List.length_append]; split <;> simp
  · rw [h6.2.2 b (by simp only [TranArea, JourArea, jourLen, jdatLen, jourBase, jdatBase, tranBase, tranLen]; omega)]; exact hm b hb

/-- Two stores lead from the empty transient storage to the array of `tranWorld2`. -/
theorem C124_reached : ∃ w1 w2 K1 K2, Reaches tranProg (.goto (tranProg.addr "sys_tstore") [0, 5, 6] (tranWorld.at 1)) (.exit K1 [] w1) ∧
    Reaches tranProg (.goto (tranProg.addr "sys_tstore") [0, 1, 1] (w1.at 2)) (.exit K2 [] w2) ∧ TransAre w2 [(7, 5, 6), (8, 1, 1)] tran2 := by
  have n1 : ∀ i u, ¬ TAt [] 7 5 i u := fun i u h => by simp [TAt] at h
  have n2 : ∀ i u, ¬ TAt [(7, 5, 6)] 8 1 i u := fun i u h => by
    rcases i with _ | i <;> simp [TAt] at h
  have s1 : (tranWorld.at 1).self = 7 := by decide +kernel
  obtain ⟨w1, T1, js1, r1, ww1, p1, t1, j1, l1, d1, m1⟩ := tran_store (w := tranWorld) (c := 1) (slot := 5) (v := 6) (js := []) (by omega) tranWorld_words (C124_start rfl)
    ⟨by decide +kernel, by decide, by decide +kernel, fun _ h => absurd h (by simp)⟩ (by omega) (by omega) (fun _ _ => rfl) (fun i e h => by simp at h) (by decide) (by decide +kernel) (by decide)
  rw [s1] at p1 t1
  obtain rfl : T1 = [(7, 5, 6)] := by
    rcases p1 with ⟨i, u, h, -⟩ | ⟨-, h⟩
    · exact absurd h (n1 _ _)
    · exact h
  have s2 : (w1.at 2).self = 8 := by
    rw [World.self, show (w1.at 2).mem = w1.mem from rfl, show (w1.at 2).ctx = 2 from rfl, m1 _ (by omega)]; decide +kernel
  have d0 : tranWorld.mem jdatLen = 0 := by decide +kernel
  obtain ⟨w2, T2, js2, r2, -, p2, t2, -, -, -, -⟩ := tran_store (w := w1) (c := 2) (slot := 1) (v := 1) (by omega) ww1 t1 j1 (by omega) (by omega) m1
    (by rw [s2]; exact TSafe.clean (by decide)) (by decide) (by omega) (by simp only [List.length_nil] at l1; omega)
  rw [s2] at p2 t2
  obtain rfl : T2 = [(7, 5, 6), (8, 1, 1)] := by
    rcases p2 with ⟨i, u, h, -⟩ | ⟨-, h⟩
    · exact absurd h (n2 _ _)
    · exact h
  exact ⟨w1, w2, _, _, r1, r2, t2⟩

/-- 5 has stored nothing, but finds 8 in its slot 6: the search takes the slot and the value of the entry of 7 for the address and the slot, and the address of the next entry for the value. -/
theorem C124_violated : ¬ C124_statement tranProg := fun h => by
  have h1 := h (tranWorld2.at 3) 0 6 [] _ _ (tranWorld2_ok (by omega)) (by omega) (by decide +kernel)
  have h2 := runOut_reaches (P := tranProg) 60 (.goto (tranProg.addr "sys_tload") [0, 6] (tranWorld2.at 3))
  have hv : (runOut tranProg 60 (.goto (tranProg.addr "sys_tload") [0, 6] (tranWorld2.at 3))).given = some [8] := by decide +kernel
  generalize runOut tranProg 60 _ = o at h2 hv
  cases o <;> simp only [Out.given, reduceCtorEq, Option.some.injEq] at hv
  subst hv
  have := h2.unique h1 nofun nofun
  have e : tran2 (tranWorld2.at 3).self 6 = 0 := by decide +kernel
  rw [e] at this
  cases this

/-- 5 stores 9 in its slot 6. This overwrites the address in the entry of 8, whose slot 1 is then empty. -/
theorem C124_store_violated : ¬ C124_store_statement tranProg := fun h => by
  have hj : JournalIs (tranWorld2.at 3) [] := ⟨by decide +kernel, by decide, by decide +kernel, fun _ h => absurd h (by simp)⟩
  obtain ⟨w', T', h1, h3⟩ := h (tranWorld2.at 3) 0 6 9 [] _ _ [] (tranWorld2_ok (by omega)) hj (by decide) (by decide +kernel) (by decide) (by omega) (by omega) (by decide +kernel) (by decide +kernel)
  have h2 := runOut_reaches (P := tranProg) 60 (.goto (tranProg.addr "sys_tstore") [0, 6, 9] (tranWorld2.at 3))
  have hv : (runOut tranProg 60 (.goto (tranProg.addr "sys_tstore") [0, 6, 9] (tranWorld2.at 3))).holds tranLen = some (tranBase + 6) ∧
      (runOut tranProg 60 (.goto (tranProg.addr "sys_tstore") [0, 6, 9] (tranWorld2.at 3))).holds tranBase = some 7 ∧
      (runOut tranProg 60 (.goto (tranProg.addr "sys_tstore") [0, 6, 9] (tranWorld2.at 3))).holds (tranBase + 3) = some 9 := by decide +kernel
  generalize runOut tranProg 60 _ = o at h2 hv
  cases o <;> simp only [Out.holds, reduceCtorEq, false_and, Option.some.injEq] at hv
  cases h2.unique h1 nofun nofun
  obtain ⟨v1, v2, v3⟩ := hv
  have hl : T'.length = 2 := by have := h3.1.len; omega
  have e : tset tran2 (tranWorld2.at 3).self 6 9 8 1 = 1 := by decide +kernel
  rcases h3.2 8 1 with ⟨i, hi⟩ | ⟨-, h0⟩
  · have c1 := (h3.1.cells i _ hi).1
    have hi2 : i < T'.length := (List.getElem?_eq_some_iff.1 hi).1
    have : i = 0 ∨ i = 1 := by omega
    rcases this with rfl | rfl
    · have := v2.symm.trans c1; simp at this
    · have := v3.symm.trans c1; simp at this
  · rw [e] at h0; omega

/-- Where 5's store went: 8's slot 1 is empty afterwards, and 9, who stored nothing, has 1 there. -/
theorem C124_moved : ∃ w' K', Reaches tranProg (.goto (tranProg.addr "sys_tstore") [0, 6, 9] (tranWorld2.at 3)) (.exit K' [] w') ∧
    (∃ K w, Reaches tranProg (.goto (tranProg.addr "sys_tload") [0, 1] (w'.at 2)) (.exit K [0] w)) ∧ ∃ K w, Reaches tranProg (.goto (tranProg.addr "sys_tload") [0, 1] (w'.at 4)) (.exit K [1] w) := by
  have hv : (runOut tranProg 60 (.goto (tranProg.addr "sys_tstore") [0, 6, 9] (tranWorld2.at 3))).given = some [] ∧
      (runOut tranProg 60 (.goto (tranProg.addr "sys_tload") [0, 1] ((runOut tranProg 60 (.goto (tranProg.addr "sys_tstore") [0, 6, 9] (tranWorld2.at 3))).world.at 2))).given = some [0] ∧
      (runOut tranProg 60 (.goto (tranProg.addr "sys_tload") [0, 1] ((runOut tranProg 60 (.goto (tranProg.addr "sys_tstore") [0, 6, 9] (tranWorld2.at 3))).world.at 4))).given = some [1] := by decide +kernel
  have h2 := runOut_reaches (P := tranProg) 60 (.goto (tranProg.addr "sys_tstore") [0, 6, 9] (tranWorld2.at 3))
  have give : ∀ (o : Out) (s : List Nat), o.given = some s → ∃ K, o = .exit K s o.world := fun o s h => by
    cases o <;> simp only [Out.given, reduceCtorEq, Option.some.injEq] at h
    subst h; exact ⟨_, rfl⟩
  obtain ⟨v1, v2, v3⟩ := hv
  obtain ⟨K1, e1⟩ := give _ _ v1
  obtain ⟨K2, e2⟩ := give _ _ v2
  obtain ⟨K3, e3⟩ := give _ _ v3
  exact ⟨_, K1, e1 ▸ h2, ⟨K2, _, e2 ▸ runOut_reaches _ _⟩, ⟨K3, _, e3 ▸ runOut_reaches _ _⟩⟩

end Verif.Kasm
