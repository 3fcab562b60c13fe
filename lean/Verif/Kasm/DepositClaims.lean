import Verif.Kasm.Deposit

/-!
C123: when a constructor has ended, what it returned becomes the code of the new contract if it may be code and can be paid for; otherwise nothing is left of the creation.
-/

namespace Verif.Kasm

variable {P : Prog} {S : List Nat} {w w' : World} {n m a g K q t d nc : Nat} {js js0 : List (List Nat)} {es : List Entry} {σ : Snap} {A : Acct}

/-- What may become the code of a contract when there is `g` gas: at most 24576 bytes (EIP-170), of which the first is not 0xEF (EIP-3541), for 200 gas each. -/
def Depositable (bs : List Nat) (g : Nat) : Prop := bs.length ≤ 24576 ∧ bs.head? ≠ some 0xEF ∧ 200 * bs.length ≤ g

instance (bs : List Nat) (g : Nat) : Decidable (Depositable bs g) := inferInstanceAs (Decidable (_ ∧ _ ∧ _))

/-- The constructor of `a` has ended with `g` gas left. -/
structure EndOk (P : Prog) (w : World) (js : List (List Nat)) (σ : Snap) (n m a g K q : Nat) : Prop where
  pays : P.Pays
  code : P.Has createCode
  snap : SnapIs w js σ n m
  room : StateRoom w js σ.touched 2
  ctx : w.ctx < 2 ^ 32
  key : P.addrKey a < u256Max
  addr : a < 2 ^ 256
  first : w.retFirst < 256
  hash : P.hash w.retData < 2 ^ 256
  gas : g * 2 ^ 192 ≤ K
  word : K < 2 ^ 256
  checks : w.checks = q + 1

/-- The prover names the account honestly. -/
def NamedOk (w : World) (js : List (List Nat)) (σ : Snap) (n key : Nat) : Prop :=
  ∃ ps f, StateIs w n ps f js σ.touched ∧ w.accts f = σ.accts ∧ AccHonest w 0 ps key

/-- The prover names the start of the list of accounts. -/
def Denied (w : World) (js : List (List Nat)) (σ : Snap) (n : Nat) : Prop :=
  ∃ ps f, StateIs w n ps f js σ.touched ∧ w.accts f = σ.accts ∧ 4 * w.inp 0 = accBase ∧ ∀ key p, f key = some p → 3 < p

/-- What is there when the code of `a` is `bs`. -/
def deposited (P : Prog) (σ : Snap) (A : Acct) (a : Nat) (bs : List Nat) : Snap :=
  { σ with accts := updAcct σ.accts (P.addrKey a) { A with codeHash := P.hash bs }, touched := touchList σ.touched a }

/-- What the journal says about it. -/
def depositEntries (σ : Snap) (A : Acct) (a : Nat) : List Entry := (if a ∈ σ.touched then [] else [.touched a]) ++ [.code a A.codeHash]

theorem retData_length : w.retData.length = w.retSize := by simp [World.retData, bytesAt]

theorem retData_head (h : w.retFirst < 256) : w.retData.head? = if w.retSize = 0 then none else some w.retFirst := by
  unfold World.retData bytesAt
  cases w.retSize with
  | zero => rfl
  | succ z =>
    have : w.mem (w.ctx * 2 ^ 64 + 17179869184) < 256 := h
    simp [List.range_succ_eq_map, World.retFirst]
    omega

theorem deposit_history (hA : σ.accts (P.addrKey a) = some A) (bs : List Nat) : History P σ (depositEntries σ A a) (deposited P σ A a bs) := by
  unfold depositEntries deposited
  rw [History.append]
  exact ⟨_, touch_history σ a, _, ⟨A, P.hash bs, hA, rfl, rfl⟩, rfl⟩

theorem depositEntries_words : (depositEntries σ A a).map Entry.words = touchLog σ.touched a ++ [[7, a, A.codeHash]] := by
  unfold depositEntries touchLog
  split <;> rfl

/-- The rest of memory after a deposit. -/
theorem deposit_snap {js' : List (List Nat)} {ts' : List Nat} {X : Nat → Option Acct} (h : SnapIs w js σ n m) (hq : q < 2 ^ 256) (hm : Shift 1 (DepositCell w.ctx) w w')
    (hr : w'.retSize = 0) (hc : w'.checks = q) (hs : ∃ ps f, StateIs w' n ps f js' ts' ∧ w'.accts f = X) : SnapIs w' js' { σ with accts := X, touched := ts' } n m := by
  have h1 : SnapIs ((w.set (w.ctx * 2 ^ 64 + 0x60000000d) q).set (w.ctx * 2 ^ 64 + 0x600000003) 0) js σ n m := by
    refine h.keep ((h.words.set hq).set (by omega)) fun b hb => ?_
    have : b < 2 ^ 64 ∧ ¬ (0x600000000 ≤ b ∧ b < 0x700000000) := by
      clear hm hr hc hs
      generalize w.ctx = c at *
      cells
    rw [set_ne (by omega), set_ne (by omega)]
  refine h1.state_grows hs fun b hb => ?_
  have hc' : w'.mem (w.ctx * 2 ^ 64 + 0x60000000d) = q := by rw [← hm.1]; exact hc
  have hr' : w'.mem (w.ctx * 2 ^ 64 + 0x600000003) = 0 := by rw [← hm.1]; exact hr
  rw [set_mem, set_mem]
  split
  · subst b; exact hr'
  · split
    · subst b; exact hc'
    · rename_i h2 h3
      refine hm.2.2 b ?_
      rintro (e | e | e)
      · exact hb (payCell_state (.inl e))
      · exact h3 e
      · exact h2 e

/-- The code is accepted if it may be: the account gets its hash, what is left of the gas goes back, the result is the address and there is no return data.  (If there is no code,
the first byte of older return data must not be 0xEF.)  The journal holds what it takes to undo it. -/
theorem C123_deposited (h : EndOk P w js σ n m a g K q) (hi : NamedOk w js σ n (P.addrKey a)) (hA : σ.accts (P.addrKey a) = some A) (hd : Depositable w.retData g)
    (h0 : w.retSize = 0 → w.retFirst ≠ 0xEF) :
    ∃ w', Reaches P (.goto (P.addr "after_constructor") (1 :: g :: nc :: a :: K :: S) w) (.exit (K - (g - 200 * w.retData.length) * 2 ^ 192) (a :: S) w') ∧
      w'.ctx = w.ctx ∧ w'.retSize = 0 ∧ w'.checks = q ∧ (∀ b, ¬ DepositCell w.ctx b → w'.mem b = w.mem b) ∧
      SnapIs w' (js ++ (depositEntries σ A a).map Entry.words) (deposited P σ A a w.retData) n m ∧ History P σ (depositEntries σ A a) (deposited P σ A a w.retData) := by
  obtain ⟨ps, f, hs, hg, hi⟩ := hi
  obtain ⟨d1, d2, d3⟩ := hd
  rw [retData_length] at d1 d3
  rw [retData_head h.first] at d2
  have e0 : w.retFirst ≠ 0xEF := by
    by_cases hz : w.retSize = 0
    · exact h0 hz
    · rw [if_neg hz] at d2; exact fun e => d2 (by rw [e])
  obtain ⟨w', js', rfl, m1, m2, m3, m4, -, m6, R⟩ := run_deposit_with (k := 0) (J := fun l => l = js ++ touchLog σ.touched a ++ [[7, a, A.codeHash]]) (nc := nc) (S := S) (X := updAcct (w.accts f) (P.addrKey a) { A with codeHash := P.hash w.retData }) h.code hs h.ctx h.addr e0 d1 d3
    h.gas h.word h.checks (fun w1 y s1 s2 s3 s4 s5 => by
      obtain ⟨w2, t1, t2, t3, t4, t5⟩ := run_set_codehash (k := 0) (v := P.hash w.retData) (A := A) (ret := P.addr "create@24.after") (S := y :: 1 :: a :: K :: S) h.pays h.code s1
        ⟨by rw [s4]; exact h.room.data, h.room.journal, h.room.touched⟩ h.key h.addr (s5 _ _ hi) (by rw [s2, hg]; exact hA) h.hash
      rw [s2] at t4
      exact ⟨w2, _, rfl, t1, t2, t3, t4, t5⟩)
  have hq : q < 2 ^ 256 := by
    have : w.checks < 2 ^ 256 := hs.words _
    rw [h.checks] at this; omega
  rw [hg] at m6
  refine ⟨w', by rw [retData_length]; exact R, m1.1, m2, m3, m1.2.2, ?_, deposit_history hA _⟩
  rw [depositEntries_words, ← List.append_assoc]
  exact deposit_snap h.snap hq m1 m2 m3 ⟨ps, f, m4, m6⟩

/-- Undoing a creation that is refused: 0 is the result, all gas is used, and what was there at the checkpoint is there again.  The size of the return data is reset only if the
code is just too expensive. -/
theorem C123_refused (h : RevertOk P w js0 es σ n m) (hc : CheckpointOk w js0 q t d) (hC : P.Has createCode) (hd : w.retFirst = 0xEF ∨ 24576 < w.retSize ∨ g < 200 * w.retSize)
    (hf : Fair P (.goto (P.addr "after_constructor") (1 :: g :: nc :: a :: K :: S) w)) :
    (Reaches P (.goto (P.addr "after_constructor") (1 :: g :: nc :: a :: K :: S) w) .panic ∨ Reaches P (.goto (P.addr "after_constructor") (1 :: g :: nc :: a :: K :: S) w) .stuck) ∨
    ∃ w', Reaches P (.goto (P.addr "after_constructor") (1 :: g :: nc :: a :: K :: S) w) (.exit K (0 :: S) w') ∧ w'.ctx = w.ctx ∧ w'.checks = q ∧
      w'.retSize = (if w.retFirst = 0xEF ∨ 24576 < w.retSize then w.retSize else 0) ∧ ∃ τ m', SnapIs w' js0 τ n m' ∧ Same σ τ := by
  have hr : ∀ w' : World, w'.ctx = w.ctx → (∀ b, ¬ RevCell b → b ≠ 0x500000021 → b ≠ w.ctx * 2 ^ 64 + 0x60000000d → w'.mem b = w.mem b) → w'.retSize = w.retSize := by
    intro w' h1 h2
    unfold World.retSize
    rw [h1]
    clear hf hd h hc
    refine h2 _ ?_ (by omega) (by omega)
    clear h1 h2
    generalize w.ctx = c at *
    cells
  by_cases e0 : w.retFirst = 0xEF
  · have R := run_deposit_ef (g := g) (nc := nc) (a := a) (K := K) (S := S) hC hc.ctx e0
    rcases C122_reverted (S := g :: 1 :: a :: K :: S) h hc (hf.of R) with ⟨-, hp | hp⟩ | ⟨s, w', hp, rfl, h1, -, h3, h4, h5⟩
    · exact .inl (.inl (R.trans hp))
    · exact .inl (.inr (R.trans hp))
    · refine .inr ⟨w', R.trans (hp.trans (run_rejected_ef hC)), h1, ?_, ?_, h5⟩
      · unfold World.checks; rw [h1]; exact h3
      · rw [if_pos (.inl e0)]; exact hr w' h1 h4
  · by_cases e1 : 24576 < w.retSize
    · have R := run_deposit_large (g := g) (nc := nc) (a := a) (K := K) (S := S) hC hc.ctx e0 e1
      rcases C122_reverted (S := w.retSize :: g :: 1 :: a :: K :: S) h hc (hf.of R) with ⟨-, hp | hp⟩ | ⟨s, w', hp, rfl, h1, -, h3, h4, h5⟩
      · exact .inl (.inl (R.trans hp))
      · exact .inl (.inr (R.trans hp))
      · refine .inr ⟨w', R.trans (hp.trans (run_rejected_large hC)), h1, ?_, ?_, h5⟩
        · unfold World.checks; rw [h1]; exact h3
        · rw [if_pos (.inr e1)]; exact hr w' h1 h4
    · have e2 : g < 200 * w.retSize := by
        rcases hd with hd | hd | hd
        · exact absurd hd e0
        · exact absurd hd e1
        · exact hd
      have R := run_deposit_oog (g := g) (nc := nc) (a := a) (K := K) (S := S) hC hc.ctx e0 (by omega) e2
      rcases C122_reverted (S := (200 * w.retSize) :: g :: 1 :: a :: K :: S) h hc (hf.of R) with ⟨-, hp | hp⟩ | ⟨s, w', hp, rfl, h1, -, h3, h4, τ, m', h5, h6⟩
      · exact .inl (.inl (R.trans hp))
      · exact .inl (.inr (R.trans hp))
      · have hx : w'.ctx < 2 ^ 32 := by rw [h1]; exact hc.ctx
        refine .inr ⟨_, R.trans (hp.trans (run_rejected_oog hC hx)), h1, ?_, ?_, τ, m', ?_, h6⟩
        · show (w'.set (w'.ctx * 2 ^ 64 + 0x600000003) 0).mem (w'.ctx * 2 ^ 64 + 0x60000000d) = q
          rw [set_ne (by omega), h1]; exact h3
        · rw [if_neg (by simp only [e0, e1, or_self, not_false_eq_true])]
          show (w'.set (w'.ctx * 2 ^ 64 + 0x600000003) 0).mem (w'.ctx * 2 ^ 64 + 0x600000003) = 0
          exact set_same
        · refine h5.keep (h5.words.set (by omega)) fun b hb => set_ne ?_
          clear hf hd h hc h5 h1 h3 h4 hp R hr e0 e1 e2 h6
          generalize w'.ctx = c at *
          cells

/-- Code that may not be accepted is not, and nothing is left of the creation. -/
theorem C123_rejected (h : RevertOk P w js0 es σ n m) (hc : CheckpointOk w js0 q t d) (hC : P.Has createCode) (h1 : w.retFirst < 256) (hd : ¬ Depositable w.retData g)
    (hf : Fair P (.goto (P.addr "after_constructor") (1 :: g :: nc :: a :: K :: S) w)) :
    (Reaches P (.goto (P.addr "after_constructor") (1 :: g :: nc :: a :: K :: S) w) .panic ∨ Reaches P (.goto (P.addr "after_constructor") (1 :: g :: nc :: a :: K :: S) w) .stuck) ∨
    ∃ w', Reaches P (.goto (P.addr "after_constructor") (1 :: g :: nc :: a :: K :: S) w) (.exit K (0 :: S) w') ∧ w'.ctx = w.ctx ∧ w'.checks = q ∧ ∃ τ m', SnapIs w' js0 τ n m' ∧ Same σ τ := by
  have hd' : w.retFirst = 0xEF ∨ 24576 < w.retSize ∨ g < 200 * w.retSize := by
    rw [Depositable, retData_length, retData_head h1] at hd
    by_cases e0 : w.retFirst = 0xEF
    · exact .inl e0
    · right
      have : (if w.retSize = 0 then none else some w.retFirst) ≠ some 0xEF := by
        split
        · simp
        · simpa using e0
      by_cases e1 : 24576 < w.retSize
      · exact .inl e1
      · exact .inr (Nat.lt_of_not_le fun e2 => hd ⟨by omega, this, e2⟩)
  rcases C123_refused h hc hC hd' hf with hp | ⟨w', p1, p2, p3, -, p5⟩
  · exact .inl hp
  · exact .inr ⟨w', p1, p2, p3, p5⟩

/-! ### What goes wrong -/

/-- C123: code that may be accepted is, with an honest prover. -/
def C123_statement : Prop :=
  ∀ (P : Prog) (S : List Nat) (w : World) (n m a g K q nc : Nat) (js : List (List Nat)) (σ : Snap) (A : Acct), EndOk P w js σ n m a g K q → NamedOk w js σ n (P.addrKey a) →
    σ.accts (P.addrKey a) = some A → Depositable w.retData g →
    ∃ K' w', Reaches P (.goto (P.addr "after_constructor") (1 :: g :: nc :: a :: K :: S) w) (.exit K' (a :: S) w')

/-- C123: a creation that is refused leaves no return data (EIP-211: return data is that of a reverted constructor or empty). -/
def C123_return_statement : Prop :=
  ∀ (P : Prog) (S : List Nat) (w w' : World) (n m a g K q t d nc : Nat) (js0 : List (List Nat)) (es : List Entry) (σ : Snap), RevertOk P w js0 es σ n m → CheckpointOk w js0 q t d →
    P.Has createCode → w.retFirst < 256 → ¬ Depositable w.retData g → Fair P (.goto (P.addr "after_constructor") (1 :: g :: nc :: a :: K :: S) w) →
    Reaches P (.goto (P.addr "after_constructor") (1 :: g :: nc :: a :: K :: S) w) (.exit K (0 :: S) w') → w'.retSize = 0

/-- C123: whatever the prover answers, an accepted contract has its code. -/
def C123_prover_statement : Prop :=
  ∀ (P : Prog) (S : List Nat) (w w' : World) (n m a g K K' q nc : Nat) (js js' : List (List Nat)) (σ σ' : Snap) (A : Acct), EndOk P w js σ n m a g K q → σ.accts (P.addrKey a) = some A →
    Depositable w.retData g → (w.retSize = 0 → w.retFirst ≠ 0xEF) →
    Reaches P (.goto (P.addr "after_constructor") (1 :: g :: nc :: a :: K :: S) w) (.exit K' (a :: S) w') → SnapIs w' js' σ' n m →
    ∃ A', σ'.accts (P.addrKey a) = some A' ∧ A'.codeHash = P.hash w.retData

/-- A prover that names the start of the list: the creation succeeds, and no account changes. -/
theorem C123_denied (h : EndOk P w js σ n m a g K q) (hi : Denied w js σ n) (hd : Depositable w.retData g) (h0 : w.retSize = 0 → w.retFirst ≠ 0xEF) :
    ∃ w' js', Reaches P (.goto (P.addr "after_constructor") (1 :: g :: nc :: a :: K :: S) w) (.exit (K - (g - 200 * w.retData.length) * 2 ^ 192) (a :: S) w') ∧
      SnapIs w' js' { σ with touched := touchList σ.touched a } n m := by
  obtain ⟨ps, f, hs, hg, hi, hp⟩ := hi
  obtain ⟨d1, d2, d3⟩ := hd
  rw [retData_length] at d1 d3
  rw [retData_head h.first] at d2
  have e0 : w.retFirst ≠ 0xEF := by
    by_cases hz : w.retSize = 0
    · exact h0 hz
    · rw [if_neg hz] at d2; exact fun e => d2 (by rw [e])
  have hq : q < 2 ^ 256 := by
    have : w.checks < 2 ^ 256 := hs.words _
    rw [h.checks] at this; omega
  obtain ⟨w', js', -, m1, m2, m3, m4, -, m6, R⟩ := run_deposit_with (k := 0) (J := fun _ => True) (nc := nc) (S := S) (X := w.accts f) h.code hs h.ctx h.addr e0 d1 d3
    h.gas h.word h.checks (fun w1 y s1 s2 s3 s4 s5 => by
      obtain ⟨w2, old, t1, t2, t3, t4, t5⟩ := run_set_codehash_start (k := 0) (v := P.hash w.retData) (ret := P.addr "create@24.after") (S := y :: 1 :: a :: K :: S) h.pays h.code s1
        ⟨by rw [s4]; exact h.room.data, h.room.journal, h.room.touched⟩ h.addr (by rw [s3]; exact hi) hp h.hash
      rw [s2] at t4
      exact ⟨w2, _, trivial, t1, t2, t3, t4, t5⟩)
  rw [hg] at m6
  exact ⟨w', js', by rw [retData_length]; exact R, deposit_snap h.snap hq m1 m2 m3 ⟨ps, f, m4, m6⟩⟩

/-! ### Examples -/

def depCode : List (String × List I) := runConstructorCode ++ terminateCode ++ selfdestructListCode ++ deleteAccountCode ++ transferCode ++ touchedCode ++ stateReadCode ++ stateInsertCode ++
  linkedListCode ++ copyCode ++ revertCode ++ undoCode ++ accessListsCode ++ createCode

/-- A kernel whose hash is the sum of the bytes. -/
def depProg : Prog := tableProg depCode List.sum

theorem depProg_has : depProg.Has depCode := tableProg_has _ _ (by decide +kernel) (by decide +kernel) (by decide +kernel)

theorem depProg_create : depProg.Has createCode := depProg_has.mono (by simp +contextual [depCode])

theorem depProg_reads : depProg.ReadsState :=
  ⟨tableProg_copies _ _ (by decide +kernel) (by decide +kernel) (by decide +kernel) (by simp +contextual [depCode]), depProg_has.mono (by simp +contextual [depCode]),
    depProg_has.mono (by simp +contextual [depCode])⟩

theorem depProg_pays : depProg.Pays := ⟨depProg_reads, depProg_has.mono (by simp +contextual [depCode]), depProg_has.mono (by simp +contextual [depCode])⟩

theorem depProg_reverts : depProg.Reverts where
  deletes := ⟨depProg_reads, depProg_has.mono (by simp +contextual [depCode])⟩
  pays := depProg_pays
  insert := depProg_has.mono (by simp +contextual [depCode])
  access := depProg_has.mono (by
    intro p hp
    rcases List.mem_cons.1 hp with rfl | hp
    · simp [depCode, linkedListCode]
    · simp [depCode, hp])
  dead := depProg_has.mono (by simp +contextual [depCode])
  undo := depProg_has.mono (by simp +contextual [depCode])
  revert := depProg_has.mono (by simp +contextual [depCode])

theorem depProg_key : depProg.addrKey 5 = 5 := by decide +kernel

/-- The constructor of 5 has returned `z` bytes; the byte where return data begins is `b`; the prover answers `i`. -/
def depWorld (b z : Nat) (i : Nat → Nat) : World := { (usedWorld.set 0x400000000 b).set 0x600000003 z with inp := i }

theorem usedWorld_state : StateIs usedWorld 2 [accBase + 4] exAccounts [[4, 5, 0], [8, 7]] [] ∧ usedWorld.accts exAccounts = snapNow.accts := by
  have hm : ∀ b, StateCell b → (((snapWorld.set 0x60000000d 1).set 0x500000021 1).set refundCell 7).mem b = lifeWorld.mem b := fun b hb => by
    rw [set_ne (by cells), set_ne (by cells), set_ne (by cells)]
    exact snapWorld_mem (by cells) (by cells)
  have h1 := lifeWorld_state.congr (((snapWorld_words.set (v := 1) (by omega)).set (v := 1) (by omega)).set (v := 7) (by omega)) hm
  have h2 := push_state (k := 1) (l := [4, 5, 0]) h1 ⟨by decide +kernel, by decide, by decide⟩ (by simp) (by simp)
  have h3 := push_state (k := 0) (l := [8, 7]) h2.1 h2.2.2.2.1 (by simp) (by simp)
  refine ⟨h3.1, h3.2.2.1.trans (h2.2.2.1.trans ?_)⟩
  exact lifeWorld_state.accts_congr fun b h1 h2 => hm b (.inr (.inr (.inl ⟨h1, h2⟩)))

theorem depWorld_mem (b z : Nat) (i : Nat → Nat) (c : Nat) (hc : RevCell c ∨ CreatedArea c) : (depWorld b z i).mem c = usedWorld.mem c := by
  show ((usedWorld.set 0x400000000 b).set 0x600000003 z).mem c = _
  rw [set_ne (by cells), set_ne (by cells)]

theorem depWorld_words {b z : Nat} {i : Nat → Nat} (hb : b < 256) (hz : z < 2 ^ 256) : Words (depWorld b z i) := by
  have h : Words ((usedWorld.set 0x400000000 b).set 0x600000003 z) := (usedWorld_is.words.set (by omega)).set hz
  exact h

theorem depWorld_snap {b z : Nat} {i : Nat → Nat} (hb : b < 256) (hz : z < 2 ^ 256) : SnapIs (depWorld b z i) [[4, 5, 0], [8, 7]] { snapNow with refund := 7 } 2 3 :=
  usedWorld_is.keep (depWorld_words hb hz) (depWorld_mem b z i)

theorem depWorld_state {b z : Nat} {i : Nat → Nat} (hb : b < 256) (hz : z < 2 ^ 256) :
    StateIs (depWorld b z i) 2 [accBase + 4] exAccounts [[4, 5, 0], [8, 7]] [] ∧ (depWorld b z i).accts exAccounts = snapNow.accts :=
  ⟨usedWorld_state.1.congr (depWorld_words hb hz) fun c hc => depWorld_mem b z i c (.inl (.inl hc)),
    (usedWorld_state.1.accts_congr fun c h1 h2 => depWorld_mem b z i c (.inl (.inl (.inr (.inr (.inl ⟨h1, h2⟩)))))).trans usedWorld_state.2⟩

theorem depWorld_ret {b z : Nat} {i : Nat → Nat} : (depWorld b z i).retSize = z ∧ (depWorld b z i).retFirst = b := by
  have hx : (depWorld b z i).ctx = 0 := rfl
  unfold World.retSize World.retFirst
  rw [hx]
  rw [Nat.zero_mul, Nat.zero_add, Nat.zero_add]
  show ((usedWorld.set 0x400000000 b).set 0x600000003 z).mem 0x600000003 = z ∧ ((usedWorld.set 0x400000000 b).set 0x600000003 z).mem 0x400000000 = b
  rw [set_same, set_ne (by omega), set_same]
  exact ⟨rfl, rfl⟩

theorem depWorld_end {b z g : Nat} {i : Nat → Nat} (hb : b < 256) (hz : z < 2 ^ 256) (hh : depProg.hash (depWorld b z i).retData < 2 ^ 256) (hg : g < 2 ^ 64) :
    EndOk depProg (depWorld b z i) [[4, 5, 0], [8, 7]] { snapNow with refund := 7 } 2 3 5 g (g * 2 ^ 192) 0 where
  pays := depProg_pays
  code := depProg_create
  snap := depWorld_snap hb hz
  room := by
    refine ⟨?_, by decide, by decide⟩
    rw [depWorld_mem b z i jdatLen (.inl (.inl (.inl (.inr (.inl rfl)))))]
    exact (by decide +kernel : usedWorld.mem jdatLen + 4 * 2 ≤ 2 ^ 32)
  ctx := by show 0 < 2 ^ 32; omega
  key := by rw [depProg_key]; decide
  addr := by omega
  first := by rw [depWorld_ret.2]; exact hb
  hash := hh
  gas := Nat.le_refl _
  word := by omega
  checks := by
    have hx : (depWorld b z i).ctx = 0 := rfl
    unfold World.checks
    rw [hx, Nat.zero_mul, Nat.zero_add, Nat.zero_add]
    show ((usedWorld.set 0x400000000 b).set 0x600000003 z).mem 0x60000000d = 1
    rw [set_ne (by omega), set_ne (by omega)]
    exact (by decide +kernel : usedWorld.mem 0x60000000d = 1)

theorem depWorld_ok {b z : Nat} {i : Nat → Nat} (hb : b < 256) (hz : z < 2 ^ 256) : RevertOk depProg (depWorld b z i) [] [.nonce 5 0, .refund 7] snapThen 2 3 := by
  have h := usedWorld_ok depProg_reverts depProg_key
  refine ⟨h.code, ⟨_, depWorld_snap hb hz, usedWorld_history depProg_key⟩, h.keys, h.slots, fun σ' hσ => ⟨?_, (h.room σ' hσ).journal, (h.room σ' hσ).touched⟩, ⟨h.accounts.nodes, ?_⟩⟩
  · rw [depWorld_mem b z i jdatLen (.inl (.inl (.inl (.inr (.inl rfl)))))]; exact (h.room σ' hσ).data
  · rw [depWorld_mem b z i 0x500000002 (.inl (.inl (.inr (.inr (.inr (.inr (.inr rfl)))))))]; exact h.accounts.data

theorem depWorld_checkpoint {b z : Nat} {i : Nat → Nat} : CheckpointOk (depWorld b z i) [] 0 0 1 := by
  have e : ∀ c, c ≠ 0x400000000 → c ≠ 0x600000003 → (depWorld b z i).mem c = usedWorld.mem c := fun c h1 h2 => by
    show ((usedWorld.set 0x400000000 b).set 0x600000003 z).mem c = _
    rw [set_ne h2, set_ne h1]
  have h := usedWorld_checkpoint
  have hx : (depWorld b z i).ctx = usedWorld.ctx := rfl
  have h0 : usedWorld.ctx = 0 := rfl
  have h1 := h.count; have h2 := h.last
  rw [h0] at h1 h2
  refine ⟨by rw [hx]; exact h.ctx, ?_, h.count', ?_, ?_, h.total', h.some, ?_, fun i _ => Nat.zero_le _⟩
  · rw [hx, h0, e _ (by omega) (by omega)]; exact h1
  · rw [hx, h0, e _ (by omega) (by omega)]; exact h2
  · rw [e _ (by omega) (by omega)]; exact h.total
  · rw [e _ (by omega) (by omega)]; exact h.here

theorem depWorld_honest {b z : Nat} (hb : b < 256) (hz : z < 2 ^ 256) : NamedOk (depWorld b z lifeWorld.inp) [[4, 5, 0], [8, 7]] { snapNow with refund := 7 } 2 (depProg.addrKey 5) := by
  obtain ⟨h1, h2⟩ := depWorld_state (i := lifeWorld.inp) hb hz
  have e : AccHonest usedWorld 0 [accBase + 4] 5 := ⟨by decide +kernel, .inr (by decide +kernel), by decide +kernel⟩
  rw [depProg_key]
  exact ⟨_, _, h1, h2, e.of_same (fun c h1 h2 => depWorld_mem b z _ c (.inl (.inl (.inr (.inr (.inr (.inl ⟨h1, h2⟩))))))) rfl usedWorld_state.1.accounts⟩

theorem depWorld_denied {b z : Nat} (hb : b < 256) (hz : z < 2 ^ 256) : Denied (depWorld b z fun _ => 0x880000000) [[4, 5, 0], [8, 7]] { snapNow with refund := 7 } 2 := by
  obtain ⟨h1, h2⟩ := depWorld_state (i := fun _ => 0x880000000) hb hz
  refine ⟨_, _, h1, h2, by show 4 * 0x880000000 = accBase; simp only [accBase], fun key p hp => ?_⟩
  simp only [exAccounts] at hp
  split at hp
  · cases hp; omega
  · cases hp

/-- The code `60` is accepted: 200 gas are paid, and the hash is that of the account. -/
example : ∃ w', Reaches depProg (.goto (depProg.addr "after_constructor") [1, 1000, 2, 5, 1000 * 2 ^ 192] (depWorld 0x60 1 lifeWorld.inp)) (.exit (200 * 2 ^ 192) [5] w') ∧ w'.retSize = 0 ∧
    SnapIs w' [[4, 5, 0], [8, 7], [2, 5], [7, 5, emptyHash]] (deposited depProg { snapNow with refund := 7 } ⟨1, 300, emptyHash⟩ 5 [0x60]) 2 3 := by
  have hd : (depWorld 0x60 1 lifeWorld.inp).retData = [0x60] := by decide +kernel
  obtain ⟨w', R, -, h2, -, -, h3, -⟩ := C123_deposited (nc := 2) (S := []) (depWorld_end (b := 0x60) (z := 1) (g := 1000) (i := lifeWorld.inp) (by omega) (by omega) (by rw [hd]; decide +kernel) (by omega))
    (depWorld_honest (by omega) (by omega)) (A := ⟨1, 300, emptyHash⟩) (by rw [depProg_key]; exact lifeWorld_accts.1) (by rw [hd]; decide) (by decide +kernel)
  rw [hd] at R h3
  refine ⟨w', ?_, h2, h3⟩
  exact R

/-- 24577 bytes are too many, and 100 gas too little for one: the nonce of 5 and the refund are again what they were. -/
example (z g : Nat) (h : (z = 24577 ∧ g = 10000000) ∨ (z = 1 ∧ g = 100)) (w' : World) (K' : Nat) (s : List Nat)
    (R : Reaches depProg (.goto (depProg.addr "after_constructor") [1, g, 2, 5, g * 2 ^ 192] (depWorld 0x60 z lifeWorld.inp)) (.exit K' s w')) :
    K' = g * 2 ^ 192 ∧ s = [0] ∧ ∃ τ m', SnapIs w' [] τ 2 m' ∧ τ.accts 5 = some ⟨0, 300, emptyHash⟩ ∧ τ.refund = 0 := by
  have hd : ¬ Depositable (depWorld 0x60 z lifeWorld.inp).retData g := fun hd => by
    have h1 := hd.1; have h2 := hd.2.2
    rw [retData_length, depWorld_ret.1] at h1 h2
    omega
  have hf : Fair depProg (.goto (depProg.addr "after_constructor") [1, g, 2, 5, g * 2 ^ 192] (depWorld 0x60 z lifeWorld.inp)) := by
    rcases h with ⟨rfl, rfl⟩ | ⟨rfl, rfl⟩ <;> exact Fair.avoids (k := 60) (by decide +kernel)
  rcases C123_rejected (S := []) (depWorld_ok (by omega) (by omega)) depWorld_checkpoint depProg_create (by rw [depWorld_ret.2]; omega) hd hf with (e | e) | ⟨w'', e, -, -, τ, m', h2, h3⟩
  · cases R.unique e nofun nofun
  · cases R.unique e nofun nofun
  · cases R.unique e nofun nofun
    exact ⟨rfl, rfl, τ, m', h2, by rw [h3.accts]; rfl, h3.refund⟩

/-- C123 fails: the code is empty, and older return data begins with 0xEF. -/
theorem C123_violated : ¬ C123_statement := fun h => by
  have hd : (depWorld 0xEF 0 lifeWorld.inp).retData = [] := by decide +kernel
  obtain ⟨K', w', R⟩ := h depProg [] (depWorld 0xEF 0 lifeWorld.inp) 2 3 5 1000 (1000 * 2 ^ 192) 0 2 _ _ ⟨1, 300, emptyHash⟩
    (depWorld_end (by omega) (by omega) (by rw [hd]; decide +kernel) (by omega)) (depWorld_honest (by omega) (by omega)) (by rw [depProg_key]; exact lifeWorld_accts.1) (by rw [hd]; decide)
  rcases C123_refused (nc := 2) (a := 5) (K := 1000 * 2 ^ 192) (g := 1000) (S := []) (depWorld_ok (b := 0xEF) (z := 0) (i := lifeWorld.inp) (by omega) (by omega)) depWorld_checkpoint depProg_create
    (.inl depWorld_ret.2) (Fair.avoids (k := 60) (by decide +kernel)) with (e | e) | ⟨w'', e, -⟩
  · cases R.unique e nofun nofun
  · cases R.unique e nofun nofun
  · cases R.unique e nofun nofun

/-- The run for `k` jumps. -/
def runOut (P : Prog) : Nat → Out → Out
  | k + 1, .goto d s w => if d < 2 ^ 32 then runOut P k (exec P (P.code d) s w) else .goto d s w
  | _, o => o

theorem runOut_reaches : ∀ (k : Nat) (o : Out), Reaches P o (runOut P k o)
  | 0, o => .refl _
  | k + 1, .goto d s w => by
    unfold runOut
    split
    · exact .step (by assumption) (runOut_reaches k _)
    · exact .refl _
  | _ + 1, .exit .. => .refl _
  | _ + 1, .panic => .refl _
  | _ + 1, .stuck => .refl _

/-- The run has left the kernel. -/
def Out.left : Out → Bool
  | .exit .. => true
  | _ => false

/-- A creation is refused because its code is `EF`: the creator has one byte of return data. -/
theorem C123_return_violated : ¬ C123_return_statement := fun h => by
  have hd : (depWorld 0xEF 1 lifeWorld.inp).retData = [0xEF] := by decide +kernel
  have hf : Fair depProg (.goto (depProg.addr "after_constructor") [1, 1000, 2, 5, 1000 * 2 ^ 192] (depWorld 0xEF 1 lifeWorld.inp)) := Fair.avoids (k := 60) (by decide +kernel)
  have hl : (runOut depProg 60 (.goto (depProg.addr "after_constructor") [1, 1000, 2, 5, 1000 * 2 ^ 192] (depWorld 0xEF 1 lifeWorld.inp))).left = true := by decide +kernel
  have hr := runOut_reaches (P := depProg) 60 (.goto (depProg.addr "after_constructor") [1, 1000, 2, 5, 1000 * 2 ^ 192] (depWorld 0xEF 1 lifeWorld.inp))
  have hok := depWorld_ok (b := 0xEF) (z := 1) (i := lifeWorld.inp) (by omega) (by omega)
  have hc := depWorld_checkpoint (b := 0xEF) (z := 1) (i := lifeWorld.inp)
  have e1 := (depWorld_ret (b := 0xEF) (z := 1) (i := lifeWorld.inp))
  generalize runOut depProg 60 _ = o at hl hr
  generalize depWorld 0xEF 1 lifeWorld.inp = w at *
  rcases C123_refused (S := []) hok hc depProg_create (.inl e1.2) hf with (e | e) | ⟨w', e, -, -, e2, -⟩
  · cases o <;> simp only [Out.left, Bool.false_eq_true] at hl
    cases hr.unique e nofun nofun
  · cases o <;> simp only [Out.left, Bool.false_eq_true] at hl
    cases hr.unique e nofun nofun
  · have h1 := h _ _ _ _ _ _ _ _ _ _ _ _ _ _ _ _ hok hc depProg_create (by rw [e1.2]; omega) (by rw [hd]; decide) hf e
    rw [if_pos (.inl e1.2), e1.1] at e2
    omega

/-- A creation succeeds although the prover denies that the contract exists, and the contract has no code. -/
theorem C123_prover_violated : ¬ C123_prover_statement := fun h => by
  have hd : (depWorld 0x60 1 fun _ => 0x880000000).retData = [0x60] := by decide +kernel
  have he := depWorld_end (b := 0x60) (z := 1) (g := 1000) (i := fun _ => 0x880000000) (by omega) (by omega) (by rw [hd]; decide +kernel) (by omega)
  have hi := depWorld_denied (b := 0x60) (z := 1) (by omega) (by omega)
  have e1 := (depWorld_ret (b := 0x60) (z := 1) (i := fun _ => 0x880000000)).2
  generalize (depWorld 0x60 1 fun _ => 0x880000000) = w at *
  have hD : Depositable w.retData 1000 := by rw [hd]; decide
  have h0 : w.retSize = 0 → w.retFirst ≠ 0xEF := fun _ => by rw [e1]; omega
  have hA : snapNow.accts (depProg.addrKey 5) = some ⟨1, 300, emptyHash⟩ := by rw [depProg_key]; exact lifeWorld_accts.1
  obtain ⟨w', js', R, hs⟩ := C123_denied (nc := 2) (S := []) he hi hD h0
  obtain ⟨A', h1, h2⟩ := h _ _ _ _ _ _ _ _ _ _ _ _ _ _ _ _ _ he hA hD h0 R hs
  rw [hd] at h2
  have h3 : some (⟨1, 300, emptyHash⟩ : Acct) = some A' := hA.symm.trans h1
  cases h3
  exact absurd h2 (by decide +kernel)

end Verif.Kasm
