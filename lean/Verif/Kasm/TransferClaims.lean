import Verif.Kasm.Transfer
import Verif.Kasm.TxnClaims

/-! C118: moving ether from one account to another. -/

namespace Verif.Kasm

variable {P : Prog} {S : List Nat} {w : World} {ret n : Nat} {ps ts : List Nat} {f : Nat → Option Nat} {js : List (List Nat)} {a b x : Nat}

/-! ### Specification -/

/-- The balance of an account; that of one that does not exist is 0. -/
def balanceOf (g : Nat → Option Acct) (k : Nat) : Nat := match g k with | some A => A.balance | none => 0
/-- The nonce of an account; that of one that does not exist is 0. -/
def nonceOf (g : Nat → Option Acct) (k : Nat) : Nat := match g k with | some A => A.nonce | none => 0
/-- The hash of an account's code; that of one that does not exist is the hash of nothing. -/
def codeOf (g : Nat → Option Acct) (k : Nat) : Nat := match g k with | some A => A.codeHash | none => emptyHash

/-- What `x` wei moving from the account `s` to the account `r` does: `s` has `x` less and `r` has `x` more, nothing changes if they are the same, no nonce, code or
other account changes, no account vanishes, and only the recipient can come into existence, if it gets something. -/
structure Moved (g g' : Nat → Option Acct) (s r x : Nat) : Prop where
  sender : s ≠ r → balanceOf g' s + x = balanceOf g s
  recipient : s ≠ r → balanceOf g' r = balanceOf g r + x
  same : s = r → balanceOf g' s = balanceOf g s
  others : ∀ k, k ≠ s → k ≠ r → g' k = g k
  nonces : ∀ k, nonceOf g' k = nonceOf g k
  codes : ∀ k, codeOf g' k = codeOf g k
  exist : ∀ k, g' k = none ↔ g k = none ∧ ¬ (k = r ∧ x ≠ 0)

/-- What holds when the kernel is to move ether from `a` to `b`; nothing is asked of the prover's hints about `b`. -/
structure TransferAt (P : Prog) (w : World) (n : Nat) (ps : List Nat) (f : Nat → Option Nat) (js : List (List Nat)) (ts : List Nat) (a b : Nat) : Prop where
  code : P.Pays
  insert : P.Has stateInsertCode
  state : StateIs w n ps f js ts
  room : StateRoom w js ts 3
  accounts : AccRoom w n
  key : P.addrKey a < u256Max
  key' : P.addrKey b < u256Max
  small : a < 2 ^ 256
  small' : b < 2 ^ 256
  hint : AccHonest w 0 ps (P.addrKey a)

/-- What holds when the kernel is to move ether from `a` to `b` with an honest prover. -/
structure TransferOk (P : Prog) (w : World) (n : Nat) (ps : List Nat) (f : Nat → Option Nat) (js : List (List Nat)) (ts : List Nat) (a b : Nat) : Prop
    extends TransferAt P w n ps f js ts a b where
  hint1 : AccHonest w 1 ps (P.addrKey b)
  hint2 : AccHonest w 2 ps (P.addrKey b)

/-! ### The claims -/

theorem moved_of {g : Nat → Option Acct} {s r : Nat} {A : Acct} (hA : g s = some A) (hx : x ≤ A.balance) (hm : s ≠ r → balanceOf g s + balanceOf g r < 2 ^ 256)
    (hb : A.balance < 2 ^ 256) : Moved g (credit (updAcct g s (taken A x)) r x) s r x := by
  have e1 : balanceOf g s = A.balance := by simp only [balanceOf, hA]
  rw [e1] at hm
  by_cases hx0 : x = 0
  · subst hx0
    have : credit (updAcct g s (taken A 0)) r 0 = g := by
      funext k
      simp only [credit, if_true, updAcct, taken, Nat.sub_zero]
      split
      · subst_vars; exact hA.symm
      · rfl
    rw [this]
    exact ⟨fun _ => rfl, fun _ => rfl, fun _ => rfl, fun _ _ _ => rfl, fun _ => rfl, fun _ => rfl, fun _ => by simp⟩
  by_cases hsr : s = r
  · subst hsr
    have : credit (updAcct g s (taken A x)) s x = g := by
      funext k
      simp only [credit, if_neg hx0, updAcct, if_true, Option.elim_some, taken]
      split
      · subst_vars; rw [Nat.sub_add_cancel hx, Nat.mod_eq_of_lt hb]; exact hA.symm
      · rfl
    rw [this]
    refine ⟨fun h => absurd rfl h, fun h => absurd rfl h, fun _ => rfl, fun _ _ _ => rfl, fun _ => rfl, fun _ => rfl, fun k => ⟨fun h => ⟨h, fun e => ?_⟩, And.left⟩⟩
    rw [e.1, hA] at h; cases h
  have hrs : r ≠ s := fun e => hsr e.symm
  have hm := hm hsr
  have gs : credit (updAcct g s (taken A x)) r x s = some (taken A x) := by simp only [credit, if_neg hx0, updAcct, if_neg hsr, if_true]
  have go : ∀ k, k ≠ s → k ≠ r → credit (updAcct g s (taken A x)) r x k = g k := fun k h1 h2 => by
    simp only [credit, if_neg hx0, updAcct, if_neg h1, if_neg h2]
  have gr : credit (updAcct g s (taken A x)) r x r = some ⟨nonceOf g r, balanceOf g r + x, codeOf g r⟩ := by
    simp only [credit, if_neg hx0, updAcct, if_true, if_neg hrs]
    cases hr : g r with
    | none => simp [nonceOf, balanceOf, codeOf, hr]
    | some B =>
      simp only [balanceOf, hr] at hm
      simp only [Option.elim_some, nonceOf, balanceOf, codeOf, hr]
      rw [Nat.mod_eq_of_lt (by omega)]
  refine ⟨fun _ => ?_, fun _ => ?_, fun e => absurd e hsr, go, fun k => ?_, fun k => ?_, fun k => ?_⟩
  · simp only [balanceOf, gs, hA]; simp only [taken]; omega
  · simp only [balanceOf, gr]
  · by_cases h1 : k = s
    · subst h1; simp only [nonceOf, gs, hA]; rfl
    · by_cases h2 : k = r
      · subst h2; rw [nonceOf, gr]
      · simp only [nonceOf, go k h1 h2]
  · by_cases h1 : k = s
    · subst h1; simp only [codeOf, gs, hA]; rfl
    · by_cases h2 : k = r
      · subst h2; rw [codeOf, gr]
      · simp only [codeOf, go k h1 h2]
  · by_cases h1 : k = s
    · subst h1; rw [gs, hA]; simp
    · by_cases h2 : k = r
      · subst h2; rw [gr]; simp [hx0]
      · rw [go k h1 h2]; simp [h2]

/-- C118.  If the sender exists and has `x` wei, and both balances together fit into a word (as they do with less than 2^256 wei in all), the kernel moves them and reports 0;
otherwise it changes no account and reports 1. -/
theorem C118_transfer (h : TransferOk P w n ps f js ts a b) (hx : x < 2 ^ 256)
    (hm : P.addrKey a ≠ P.addrKey b → balanceOf (w.accts f) (P.addrKey a) + balanceOf (w.accts f) (P.addrKey b) < 2 ^ 256) :
    ∃ w' n' ps' f' js' ts', StateIs w' n' ps' f' (js ++ js') ts' ∧
      (w.accts f (P.addrKey a) ≠ none ∧ x ≤ balanceOf (w.accts f) (P.addrKey a) →
        Reaches P (.goto (P.addr "transfer_eth") (a :: b :: x :: ret :: S) w) (.goto ret (0 :: S) w') ∧
        Moved (w.accts f) (w'.accts f') (P.addrKey a) (P.addrKey b) x) ∧
      (¬ (w.accts f (P.addrKey a) ≠ none ∧ x ≤ balanceOf (w.accts f) (P.addrKey a)) →
        Reaches P (.goto (P.addr "transfer_eth") (a :: b :: x :: ret :: S) w) (.goto ret (1 :: S) w') ∧ w'.accts f' = w.accts f) := by
  obtain ⟨w', n', ps', f', js', ts', s, -, -, hd⟩ := run_transfer (k := 0) (x := x) (ret := ret) (S := S) h.code h.insert h.state h.room h.accounts h.key h.small h.key' h.small' hx
    h.hint h.hint1 h.hint2
  refine ⟨w', n', ps', f', js', ts', s, ?_⟩
  rcases hd with ⟨A, hA, hle, g, r⟩ | ⟨hlt, g, r⟩
  · refine ⟨fun _ => ⟨r, ?_⟩, fun e => absurd ⟨by simp [hA], by simpa [balanceOf, hA] using hle⟩ e⟩
    rw [g]
    exact moved_of hA hle hm (accts_words h.state.words hA)
  · refine ⟨fun e => ?_, fun _ => ⟨r, g⟩⟩
    cases hA : w.accts f (P.addrKey a) with
    | none => exact absurd hA e.1
    | some A =>
      have := e.2
      simp only [balanceOf, hA] at this
      have := hlt A hA
      omega

/-- The ether of some accounts. -/
def etherOf (g : Nat → Option Acct) (ks : List Nat) : Nat := (ks.map (balanceOf g)).sum

theorem etherOf_congr {g g' : Nat → Option Acct} {ks : List Nat} (h : ∀ k ∈ ks, balanceOf g' k = balanceOf g k) : etherOf g' ks = etherOf g ks := by
  rw [etherOf, etherOf, List.map_congr_left h]

theorem etherOf_one {g g' : Nat → Option Acct} {ks : List Nat} {r x : Nat} (hn : ks.Nodup) (hr : r ∈ ks) (h1 : balanceOf g' r = balanceOf g r + x)
    (h2 : ∀ k ∈ ks, k ≠ r → balanceOf g' k = balanceOf g k) : etherOf g' ks = etherOf g ks + x := by
  induction ks with
  | nil => cases hr
  | cons k ks ih =>
    rw [List.nodup_cons] at hn
    simp only [etherOf, List.map_cons, List.sum_cons]
    by_cases hk : k = r
    · subst hk
      have := etherOf_congr (g := g) (g' := g') (ks := ks) fun j hj => h2 j (List.mem_cons_of_mem _ hj) fun e => hn.1 (e ▸ hj)
      simp only [etherOf] at this
      rw [this, h1]; omega
    · have hr' : r ∈ ks := (List.mem_cons.1 hr).resolve_left fun e => hk e.symm
      have := ih hn.2 hr' fun j hj => h2 j (List.mem_cons_of_mem _ hj)
      simp only [etherOf] at this
      rw [this, h2 k (List.mem_cons_self) hk]; omega

/-- C118, conservation: whatever set of accounts one looks at, if it contains the sender and the recipient their ether in all is the same before and after. -/
theorem C118_conserved {g g' : Nat → Option Acct} {s r : Nat} {ks : List Nat} (h : Moved g g' s r x) (hn : ks.Nodup) (hs : s ∈ ks) (hr : r ∈ ks) :
    etherOf g' ks = etherOf g ks := by
  by_cases e : s = r
  · refine etherOf_congr fun k hk => ?_
    by_cases hk' : k = s
    · rw [hk']; exact h.same e
    · simp only [balanceOf]; rw [h.others k hk' (e ▸ hk')]
  · -- first the recipient gets it, then the sender loses it
    have h1 := etherOf_one (g := g) (g' := fun k => if k = r then g' k else g k) hn hr (x := x) (by simp only [balanceOf, if_true]; exact h.recipient e)
      fun k _ hk => by simp only [balanceOf, if_neg hk]
    have h2 := etherOf_one (g := g') (g' := fun k => if k = r then g' k else g k) hn hs (x := x)
      (by simp only [balanceOf, if_neg e]; exact (h.sender e).symm)
      fun k _ hk => by
        by_cases hk' : k = r
        · simp only [balanceOf, if_pos hk']
        · simp only [balanceOf, if_neg hk', h.others k hk hk']
    omega

/-- C118, with a dishonest prover: every transfer of something can be proved with the start of the list of accounts as the hint for the recipient's record; the recipient, if
there was one, then has lost its nonce, its code and its balance, and is left with the `x` wei alone. -/
theorem C118_wiped (h : TransferAt P w n ps f js ts a b) (hx : x < 2 ^ 256) (hx0 : x ≠ 0) (he : w.accts f (P.addrKey a) ≠ none)
    (hle : x ≤ balanceOf (w.accts f) (P.addrKey a)) (h1 : 4 * w.inp 1 = accBase) (h2 : AccHonest w 2 ps (P.addrKey b)) :
    ∃ w' n' ps' f' js' ts', StateIs w' n' ps' f' (js ++ js') ts' ∧
      Reaches P (.goto (P.addr "transfer_eth") (a :: b :: x :: ret :: S) w) (.goto ret (0 :: S) w') ∧
      balanceOf (w'.accts f') (P.addrKey b) = x ∧ nonceOf (w'.accts f') (P.addrKey b) = 0 ∧ codeOf (w'.accts f') (P.addrKey b) = emptyHash := by
  cases hA : w.accts f (P.addrKey a) with
  | none => exact absurd hA he
  | some A =>
    obtain ⟨w', n', ps', f', js', ts', s, g, r⟩ := run_transfer_denied (k := 0) (x := x) (ret := ret) (S := S) h.code h.insert h.state h.room h.accounts h.key h.small h.key' h.small' hx hx0
      hA (by simpa only [balanceOf, hA] using hle) h.hint h1 h2
    refine ⟨w', n', ps', f', js', ts', s, r, ?_, ?_, ?_⟩ <;> simp only [g, balanceOf, nonceOf, codeOf, updAcct, if_true]

/-- C118 in full: whatever the prover says about the recipient, a transfer that the kernel reports as done has moved the ether and nothing else. -/
def C118_statement : Prop := ∀ (P : Prog) (w w' : World) (n n' ret : Nat) (ps ps' ts ts' S : List Nat) (f f' : Nat → Option Nat) (js js' : List (List Nat)) (a b x : Nat),
  TransferAt P w n ps f js ts a b → x < 2 ^ 256 →
  (P.addrKey a ≠ P.addrKey b → balanceOf (w.accts f) (P.addrKey a) + balanceOf (w.accts f) (P.addrKey b) < 2 ^ 256) →
  Reaches P (.goto (P.addr "transfer_eth") (a :: b :: x :: ret :: S) w) (.goto ret (0 :: S) w') → StateIs w' n' ps' f' (js ++ js') ts' →
  Moved (w.accts f) (w'.accts f') (P.addrKey a) (P.addrKey b) x

/-! ### Example -/

/-- A kernel whose hash of an address is the sum of its bytes. -/
def payProg : Prog := tableProg (transferCode ++ touchedCode ++ stateReadCode ++ stateInsertCode ++ linkedListCode ++ copyCode) List.sum

theorem payProg_has : payProg.Has (transferCode ++ touchedCode ++ stateReadCode ++ stateInsertCode ++ linkedListCode ++ copyCode) :=
  tableProg_has _ _ (by decide +kernel) (by decide +kernel) (by decide +kernel)

theorem payProg_pays : payProg.Pays :=
  ⟨⟨tableProg_copies _ _ (by decide +kernel) (by decide +kernel) (by decide +kernel) (by simp +contextual), payProg_has.mono (by simp +contextual),
    payProg_has.mono (by simp +contextual)⟩, payProg_has.mono (by simp +contextual), payProg_has.mono (by simp +contextual)⟩

/-- The account 5 has 300 wei; there is no account 9. -/
theorem payWorld_ok : TransferOk payProg (txnWorld 0 0 0 0 300) 2 [accBase + 4] exAccounts [] [] 5 9 where
  code := payProg_pays
  insert := payProg_has.mono (by simp +contextual)
  state := txnWorld_state (by omega) (by omega) (by omega) (by omega) (by omega)
  room := ⟨by rw [txnWorld_list (by decide)]; decide, by decide, by decide⟩
  accounts := ⟨by omega, by decide⟩
  key := by decide +kernel
  key' := by decide +kernel
  small := by omega
  small' := by omega
  hint := by rw [show payProg.addrKey 5 = 5 by decide +kernel]; refine ⟨by decide, .inr (by decide), by decide⟩
  hint1 := by rw [show payProg.addrKey 9 = 9 by decide +kernel]; refine ⟨by decide, .inr (by decide), by decide⟩
  hint2 := by rw [show payProg.addrKey 9 = 9 by decide +kernel]; refine ⟨by decide, .inr (by decide), by decide⟩

/-- 120 of the 300 wei go to a new account. -/
example : ∃ w' f', Reaches payProg (.goto (payProg.addr "transfer_eth") [5, 9, 120, 17] (txnWorld 0 0 0 0 300)) (.goto 17 [0] w') ∧
    w'.accts f' 9 ≠ none ∧ balanceOf (w'.accts f') 9 = 120 ∧ balanceOf (w'.accts f') 5 = 180 ∧ nonceOf (w'.accts f') 9 = 0 := by
  have e5 : balanceOf ((txnWorld 0 0 0 0 300).accts exAccounts) 5 = 300 := by decide
  have e9 : (txnWorld 0 0 0 0 300).accts exAccounts 9 = none := by decide
  obtain ⟨w', n', ps', f', js', ts', -, h, -⟩ := C118_transfer (x := 120) (ret := 17) (S := []) payWorld_ok (by omega) (by decide +kernel)
  rw [show payProg.addrKey 5 = 5 by decide +kernel, show payProg.addrKey 9 = 9 by decide +kernel] at h
  obtain ⟨r, m⟩ := h ⟨by decide, by decide⟩
  have m1 := m.sender (by omega)
  have m2 := m.recipient (by omega)
  have m3 := m.nonces 9
  have m4 := m.exist 9
  simp only [e9] at m4
  have e9' : balanceOf ((txnWorld 0 0 0 0 300).accts exAccounts) 9 = 0 := by simp only [balanceOf, e9]
  refine ⟨w', f', r, fun h => absurd (m4.1 h) (by simp), by omega, by omega, by rw [m3, nonceOf, e9]⟩

/-- 301 wei are too many. -/
example : ∃ w' f', Reaches payProg (.goto (payProg.addr "transfer_eth") [5, 9, 301, 17] (txnWorld 0 0 0 0 300)) (.goto 17 [1] w') ∧
    w'.accts f' = (txnWorld 0 0 0 0 300).accts exAccounts := by
  obtain ⟨w', n', ps', f', js', ts', -, -, h⟩ := C118_transfer (x := 301) (ret := 17) (S := []) payWorld_ok (by omega) (by decide +kernel)
  rw [show payProg.addrKey 5 = 5 by decide +kernel] at h
  obtain ⟨r, m⟩ := h fun e => absurd e.2 (by decide)
  exact ⟨w', f', r, m⟩

/-- The prover names the start of the list when asked for the recipient's record. -/
def denyWorld : World := { txnWorld 0 0 0 0 300 with inp := fun i => if i = 1 then accBase / 4 else (accBase + 4) / 4 }

theorem denyWorld_ok : TransferAt payProg denyWorld 2 [accBase + 4] exAccounts [] [] 5 5 where
  code := payProg_pays
  insert := payProg_has.mono (by simp +contextual)
  state :=
    have h := txnWorld_state (g := 0) (prio := 0) (fee := 0) (v := 0) (bal := 300) (by omega) (by omega) (by omega) (by omega) (by omega)
    ⟨h.words, h.accounts, h.ptr, h.apart, h.null, h.journal.congr fun _ _ => rfl, ⟨h.touched.1, h.touched.2, h.touched.3⟩, h.size⟩
  room := ⟨payWorld_ok.room.data, payWorld_ok.room.journal, payWorld_ok.room.touched⟩
  accounts := ⟨by omega, by decide⟩
  key := by decide +kernel
  key' := by decide +kernel
  small := by omega
  small' := by omega
  hint := by rw [show payProg.addrKey 5 = 5 by decide +kernel]; refine ⟨by decide, .inr (by decide), by decide⟩

/-- C118 fails: an account with 300 wei sends itself 120 wei and is left with 120. -/
theorem C118_wiped_violated : ∃ w' n' ps' f' js' ts', StateIs w' n' ps' f' ([] ++ js') ts' ∧
    Reaches payProg (.goto (payProg.addr "transfer_eth") [5, 5, 120, 17] denyWorld) (.goto 17 [0] w') ∧
    balanceOf (denyWorld.accts exAccounts) 5 = 300 ∧ balanceOf (w'.accts f') 5 = 120 := by
  obtain ⟨w', n', ps', f', js', ts', s, r, h, -⟩ := C118_wiped (x := 120) (ret := 17) (S := []) denyWorld_ok (by omega) (by omega) (by decide +kernel) (by decide +kernel)
    (by decide) (by rw [show payProg.addrKey 5 = 5 by decide +kernel]; refine ⟨by decide, .inr (by decide), by decide⟩)
  rw [show payProg.addrKey 5 = 5 by decide +kernel] at h
  exact ⟨w', n', ps', f', js', ts', s, r, by decide, h⟩

theorem C118_violated : ¬ C118_statement := fun h => by
  obtain ⟨w', n', ps', f', js', ts', s, r, h1, h2⟩ := C118_wiped_violated
  have m := h _ _ _ _ _ _ _ _ _ _ _ _ _ _ _ _ _ _ denyWorld_ok (by omega) (fun e => absurd rfl e) r s
  have := m.same rfl
  rw [show payProg.addrKey 5 = 5 by decide +kernel] at this
  omega

end Verif.Kasm
