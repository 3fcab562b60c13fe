import Verif.Kasm.Checkpoint

/-!
What a transfer of ether writes in the journal: entries that lead from what was there before it to what is there after it, so that undoing them undoes it.
-/

namespace Verif.Kasm

variable {P : Prog} {S : List Nat} {w w' : World} {ret n n' m k a b x : Nat} {ps ts : List Nat} {f : Nat → Option Nat} {js js' : List (List Nat)} {σ σ' τ : Snap} {A : Acct}

/-- Accounts and touched addresses have changed, and something has been written in the journal. -/
theorem SnapIs.state_grows {X : Nat → Option Acct} {Y : List Nat} (h : SnapIs w js τ n m) (hs : ∃ ps f, StateIs w' n' ps f js' Y ∧ w'.accts f = X)
    (hm : ∀ b, ¬ (StateCell b ∨ Scratch b) → w'.mem b = w.mem b) : SnapIs w' js' { τ with accts := X, touched := Y } n' m :=
  ⟨hs, h.slots_of fun b hb => hm b (by cells), h.addrs_of fun b hb => hm b (by cells), h.keys_of fun b hb => hm b (by cells),
    DeadAre.of_same h.dead fun b hb => hm b (by cells), h.created_of fun b hb => hm b (by cells),
    (hm _ (by cells)).trans h.refund, (hm _ (by cells)).trans h.logs, (hm _ (by cells)).trans h.logData,
    (hm _ (by cells)).trans h.logPayload⟩

/-- What `transfer_eth` writes in the journal when the sender can pay. -/
theorem run_transfer_log (hP : P.Pays) (hI : P.Has stateInsertCode) (h : StateIs w n ps f js ts) (hr : StateRoom w js ts (k + 3)) (hn : AccRoom w n)
    (ha : P.addrKey a < u256Max) (ha' : a < 2 ^ 256) (hb : P.addrKey b < u256Max) (hb' : b < 2 ^ 256) (hx : x < 2 ^ 256) (hi : AccHonest w 0 ps (P.addrKey a))
    (hi1 : AccHonest w 1 ps (P.addrKey b)) (hi2 : AccHonest w 2 ps (P.addrKey b)) (hA : w.accts f (P.addrKey a) = some A) (hle : x ≤ A.balance) :
    ∃ w' n' ps' f' l, l = touchLog ts a ++ touchLog (touchList ts a) b ++ createLog (updAcct (w.accts f) (P.addrKey a) (taken A x)) (P.addrKey b) b x ∧
      Reaches P (.goto (P.addr "transfer_eth") (a :: b :: x :: ret :: S) w) (.goto ret (0 :: S) w') ∧
      StateIs w' n' ps' f' (js ++ l) (touchList (touchList ts a) b) ∧ StateRoom w' (js ++ l) (touchList (touchList ts a) b) k ∧
      w'.accts f' = credit (updAcct (w.accts f) (P.addrKey a) (taken A x)) (P.addrKey b) x ∧ w'.ctx = w.ctx ∧ (∀ d, ¬ PayCell d → w'.mem d = w.mem d) := by
  obtain ⟨w1, f1, s1, r1, hd⟩ := run_deduct (k := k + 2) (x := x) (ret := P.addr "transfer@1.after") (S := b :: x :: ret :: S) hP h hr ha ha' hi
  rcases hd with ⟨A', hA', -, g1, R1⟩ | ⟨hlt, -, -⟩
  · rw [hA] at hA'; cases hA'
    obtain ⟨w2, n', ps', f', R2, s2, g2, c2, m2, r2, -⟩ := run_add_eth (x := x) (ret := P.addr "transfer@2.after") (S := ret :: S) hP hI s1 r1 (hn.shift f1) hb hb' hx
      (f1.honest h.accounts hi1) (f1.honest h.accounts hi2)
    rw [g1] at g2 s2 r2
    rw [List.append_assoc, List.append_assoc] at s2 r2
    rw [← List.append_assoc (touchLog ts a)] at s2 r2
    refine ⟨w2, n', ps', f', _, rfl, ?_, s2, r2, g2, c2.trans f1.1, fun d hd => (m2 d hd).trans (f1.2.2 d fun e => hd (.inl e))⟩
    enter hP.transfer in transferCode
    rw [b_transfer_eth]
    kexec []
    refine R1.trans ?_
    enter hP.transfer in transferCode
    rw [b_transfer_1_after]
    kexec []
    refine R2.trans ?_
    enter hP.transfer in transferCode
    rw [b_transfer_2_after]
    kexec []
    exact .refl _
  · have := hlt A hA; omega

/-- The entries of a transfer. -/
def transferEntries (σ : Snap) (kb a b x : Nat) : List Entry :=
  (if a ∈ σ.touched then [] else [.touched a]) ++ (if b ∈ touchList σ.touched a then [] else [.touched b]) ++ (if x ≠ 0 ∧ σ.accts kb = none then [.created 0 b] else []) ++
    (if x = 0 then [] else [.transfer a b x])

/-- What is there after a transfer. -/
def transferred (σ : Snap) (A : Acct) (ka kb a b x : Nat) : Snap :=
  { σ with accts := credit (updAcct σ.accts ka (taken A x)) kb x, touched := touchList (touchList σ.touched a) b }

theorem touch_history (σ : Snap) (a : Nat) : History P σ (if a ∈ σ.touched then [] else [.touched a]) { σ with touched := touchList σ.touched a } := by
  unfold touchList
  split
  · rfl
  · rename_i h
    exact ⟨_, ⟨h, rfl⟩, rfl⟩

theorem mem_touchList (ts : List Nat) (a : Nat) : a ∈ touchList ts a := by
  unfold touchList; split
  · assumption
  · simp

theorem mem_touchList_of {c : Nat} (h : c ∈ ts) : c ∈ touchList ts a := by
  unfold touchList; split
  · exact h
  · simp [h]

theorem taken_zero : updAcct σ.accts (P.addrKey a) (taken A 0) = updAcct σ.accts (P.addrKey a) A := rfl

theorem updAcct_same {g : Nat → Option Acct} {q : Nat} (h : g q = some A) : updAcct g q A = g := by
  funext c
  unfold updAcct
  split
  · rename_i e; rw [e, h]
  · rfl

/-- Undoing them undoes it. -/
theorem transfer_history (hA : σ.accts (P.addrKey a) = some A) (hle : x ≤ A.balance) (hA' : A.balance < 2 ^ 256)
    (hsum : ∀ B, σ.accts (P.addrKey b) = some B → P.addrKey a ≠ P.addrKey b → A.balance + B.balance < 2 ^ 256) (hno : σ.accts (P.addrKey b) = none → ∀ j, σ.slots (P.addrKey b) j = none) :
    History P σ (transferEntries σ (P.addrKey b) a b x) (transferred σ A (P.addrKey a) (P.addrKey b) a b x) := by
  unfold transferEntries transferred
  rw [List.append_assoc, List.append_assoc, History.append]
  refine ⟨_, touch_history σ a, ?_⟩
  rw [History.append]
  refine ⟨_, touch_history { σ with touched := touchList σ.touched a } b, ?_⟩
  have ma := mem_touchList_of (a := b) (mem_touchList σ.touched a)
  have mb := mem_touchList (touchList σ.touched a) b
  by_cases hx : x = 0
  · subst hx
    rw [if_neg (by simp), if_pos rfl, credit, if_pos rfl, taken_zero, updAcct_same hA]
    rfl
  rw [if_neg hx]
  cases hB : σ.accts (P.addrKey b) with
  | some B =>
    rw [if_neg (by simp)]
    refine ⟨_, ⟨A, B, hA, hle, hA', hB, hsum B hB, ma, mb, hx, ?_⟩, rfl⟩
    congr 1
    rw [credit, if_neg hx]
    funext c
    simp only [updAcct, paid]
    by_cases hab : P.addrKey b = P.addrKey a
    · simp [hab]
    · simp [hab, hB]
  | none =>
    rw [if_pos ⟨hx, rfl⟩]
    have hab : P.addrKey b ≠ P.addrKey a := fun e => by rw [e, hA] at hB; cases hB
    refine ⟨_, ⟨⟨0, 0, emptyHash⟩, hB, hno hB, rfl⟩, _, ⟨A, ⟨0, 0, emptyHash⟩, ?_, hle, hA', ?_, fun _ => ?_, ma, mb, hx, ?_⟩, rfl⟩
    · simp [updAcct, Ne.symm hab, hA]
    · simp [updAcct]
    · simpa using hA'
    · simp only [if_true]
      congr 1
      rw [credit, if_neg hx]
      funext c
      simp only [updAcct, paid]
      by_cases hc : c = P.addrKey b
      · subst hc
        simp [hab, hB]
        omega
      · simp [hc]

/-- They are what `transfer_eth` and the call after it write. -/
theorem transferEntries_words (hA : σ.accts (P.addrKey a) = some A) : (transferEntries σ (P.addrKey b) a b x).map Entry.words =
    touchLog σ.touched a ++ touchLog (touchList σ.touched a) b ++ createLog (updAcct σ.accts (P.addrKey a) (taken A x)) (P.addrKey b) b x ++ (if x = 0 then [] else [[3, a, b, x]]) := by
  have e : updAcct σ.accts (P.addrKey a) (taken A x) (P.addrKey b) = none ↔ σ.accts (P.addrKey b) = none := by
    unfold updAcct; split
    · rename_i e; rw [e, hA]; simp
    · rfl
  unfold transferEntries touchLog createLog
  simp only [e, List.map_append]
  congr 1
  · congr 1
    · congr 1 <;> split <;> rfl
    · split <;> rfl
  · split <;> rfl

end Verif.Kasm
