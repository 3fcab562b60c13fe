import Verif.Kasm.StorageSys
import Verif.Kasm.CallGasClaims

/-! Property C115: what `SLOAD` and `SSTORE` read, write, charge, give back and record. -/

namespace Verif.Kasm

variable {P : Prog} {S : List Nat} {w : World} {n m k : Nat} {qs ks : List Nat} {g h : Nat → Nat → Option Nat} {js : List (List Nat)} {slot v : Nat}

/-! ### Specification -/

/-- Gas of `SLOAD` (EIP-2929). -/
def sloadGas (cold : Bool) : Nat := if cold then 2100 else 100

/-- Gas of `SSTORE` (EIP-2200 with EIP-2929): `o` is the value at the start of the transaction, `c` the current and `v` the new one. -/
def sstoreGas (cold : Bool) (o c v : Nat) : Nat :=
  (if cold then 2100 else 0) + (if v = c then 100 else if o = c then (if o = 0 then 20000 else 2900) else 100)

/-- What `SSTORE` adds to the counter of refunds (EIP-2200 with EIP-3529). -/
def sstoreRefund (o c v : Nat) : Int :=
  if c = v then 0
  else if c = o then (if v = 0 then 4800 else 0)
  else (if o ≠ 0 then (if c = 0 then -4800 else if v = 0 then 4800 else 0) else 0) + (if o = v then (if o = 0 then 19900 else 2800) else 0)

/-- The value of a slot of an account: slots that are not in the list are 0. -/
def slotValue (P : Prog) (g : Nat → Nat → Option Nat) (a slot : Nat) : Nat := (g (P.addrKey a) (P.slotKey slot)).getD 0

/-- The account executing may not change the state (`@CTX_METADATA_STATIC`). -/
def World.isStatic (w : World) : Prop := w.mem (w.ctx * 2 ^ 64 + 0x600000008) ≠ 0

/-- Everything the kernel's handlers rely on: the state is in memory as described, there is room, and hashes and addresses are in range. -/
structure StorageOk (P : Prog) (w : World) (k n : Nat) (qs : List Nat) (g : Nat → Nat → Option Nat) (m : Nat) (ks : List Nat)
    (h : Nat → Nat → Option Nat) (js : List (List Nat)) (slot : Nat) : Prop where
  code : P.Stores
  serving : Serving w k
  state : StorageIs w n qs g m ks h js
  room : StorageRoom w n m js
  keys : StorageKeys P w slot

/-- The property in full, for every value the prover supplies: if the handler comes to its end, `SLOAD` has given the value of the slot, and
`SSTORE` has left the new value in it. -/
def C115_statement : Prop :=
  ∀ (P : Prog) (w : World) (k n : Nat) (qs : List Nat) (g : Nat → Nat → Option Nat) (m : Nat) (ks : List Nat) (h : Nat → Nat → Option Nat)
    (js : List (List Nat)) (slot v : Nat) (S S' : List Nat) (k' : Nat) (w' : World), StorageOk P w k n qs g m ks h js slot → v < 2 ^ 256 →
    (Reaches P (.goto (P.addr "sys_sload") (k :: slot :: S) w) (.exit k' S' w') → S' = slotValue P g w.self slot :: S) ∧
    (Reaches P (.goto (P.addr "sys_sstore") (k :: slot :: v :: S) w) (.exit k' S' w') →
      ∀ n' qs' g', SlotsAre w' n' qs' g' → slotValue P g' w.self slot = v)

/-! ### `SLOAD` -/

/-- C115 for `SLOAD` and right hints: the value of the slot for 100 gas, or 2100 at the first access, which is recorded with the value the
slot had; a fault if the gas does not suffice. -/
theorem C115_sload_partial (hok : StorageOk P w k n qs g m ks h js slot) (hi1 : KeyHint w ks w.self slot)
    (hi2 : SlotHint (w.skip 1) qs (P.addrKey w.self) (P.slotKey slot)) :
    let cold := w.orig h w.self slot = none
    let start := Out.goto (P.addr "sys_sload") (k :: slot :: S) w
    (w.gasLimit < k / 2 ^ 192 + sloadGas cold → ∃ s' w', Reaches P start (.goto (P.addr "fault_exception") s' w')) ∧
    (k / 2 ^ 192 + sloadGas cold ≤ w.gasLimit → ∃ w' m' ks' h',
      Reaches P start (.exit (k + sloadGas cold * 2 ^ 192) (slotValue P g w.self slot :: S) w') ∧
      StorageIs w' n qs g m' ks' h' (js ++ if cold then [[6, w.self, slot]] else []) ∧ m' ≤ m + 1 ∧
      (∀ b y, y < 2 ^ 256 → w'.orig h' b y =
        if b = w.self ∧ y = slot then some ((w.orig h w.self slot).getD (slotValue P g w.self slot)) else w.orig h b y) ∧
      w'.mem refundCell = w.mem refundCell ∧ w'.ctx = w.ctx ∧ ∀ b, ¬ StoreCell b → w'.mem b = w.mem b) := by
  have hcold : (w.orig h w.self slot = none) = (h w.self slot = none) := by simp [World.orig]
  have hg : sloadGas (w.orig h w.self slot = none) = if h w.self slot = none then 2100 else 100 := by
    simp only [sloadGas, hcold, decide_eq_true_eq]
  have hlog : (if w.orig h w.self slot = none then [[6, w.self, slot]] else []) = coldLog h w.self slot := by simp only [hcold, coldLog]
  obtain ⟨hP, hS, hM, hR, hX⟩ := hok
  have := run_sload_of (S := S) (cur := slotValue P g w.self slot) hP hS hM hR hX hi1 (slotOf_lt hM.words hM.slots hX.hash) (by
    intro w1 ret S' f1 hw1 hK1 hs1 hc1
    have := run_sload_current (ret := ret) (S := S') (slot := slot) hP hw1 hc1 hK1 (by rw [hs1]; exact hX.addr) hX.hash (by
      rw [hs1]
      exact SlotHint.congr (w := w.skip 1) hM.slots hi2 (f1.2.1 0) fun b h1 h2 => f1.2.2 b (slot_access b (.inr ⟨h1, h2⟩)))
    rw [hs1] at this
    exact this)
  intro cold start
  have hg' : sloadGas cold = if h w.self slot = none then 2100 else 100 := hg
  rw [hg']
  simp only [cold]
  rw [hlog]
  rcases this with ⟨h1, h2⟩ | ⟨h1, w', m', ks', h', h2, h3, h4, -, h5, h6, h7⟩
  · exact ⟨fun _ => h2, fun e => by omega⟩
  · exact ⟨fun e => by omega, fun _ => ⟨w', m', ks', h', h2, h3, h4, h5, h7, h6.1, h6.2.2⟩⟩

/-! ### `SSTORE` -/

theorem dirty_eq {cold : Prop} [Decidable cold] {o c : Nat} : (if cold then 2100 else 0) + dirtyGas o c v = sstoreGas cold o c v := by
  simp only [sstoreGas, dirtyGas, decide_eq_true_eq]
  congr 1
  by_cases h1 : v = c
  · rw [if_pos (.inl h1), if_pos h1]
  · by_cases h2 : o = c
    · rw [if_neg (fun e => e.elim h1 (fun e => e h2)), if_neg h1, if_pos h2]
    · rw [if_pos (.inr h2), if_neg h1, if_neg h2]

theorem wadd_int {x y : Nat} : ((wadd x y : Nat) : Int) = ((x : Int) + y) % ((2 ^ 256 : Nat) : Int) := by
  simp only [wadd]
  rw [Int.natCast_emod, Int.natCast_add]

theorem sum_refund {o c : Nat} : ∃ j : Nat, (((refundWords o c v).sum : Nat) : Int) = sstoreRefund o c v + j * ((2 ^ 256 : Nat) : Int) := by
  have hM : ((2 ^ 256 - 4800 : Nat) : Int) = ((2 ^ 256 : Nat) : Int) - 4800 := by
    rw [Int.natCast_sub (by decide)]; rfl
  generalize hMM : ((2 ^ 256 : Nat) : Int) = M at *
  have hM' : ∀ y : Nat, ((2 ^ 256 - 4800 + y : Nat) : Int) = -4800 + y + (1 : Nat) * M := by
    intro y
    rw [Int.natCast_add, hM]; simp only [Int.natCast_one, Int.one_mul]; omega
  simp only [refundWords, sstoreRefund]
  have hj : ∀ {x y : Int}, x = y → ∃ j : Nat, x = y + j * M := fun h => ⟨0, by rw [h]; simp⟩
  repeat' split
  all_goals first
    | contradiction
    | (refine hj ?_; simp; done)
    | (refine ⟨1, ?_⟩; simp only [List.sum_cons, List.sum_nil, List.append_nil, List.cons_append, List.nil_append]; rw [hM']; simp)
    | (refine ⟨1, ?_⟩; simp only [List.sum_cons, List.sum_nil, List.append_nil, List.cons_append, List.nil_append]; rw [hM'])

theorem foldl_wadd (l : List Nat) : ∀ x : Nat, x < 2 ^ 256 → ((l.foldl wadd x : Nat) : Int) = ((x : Int) + (l.sum : Nat)) % ((2 ^ 256 : Nat) : Int) := by
  induction l with
  | nil =>
    intro x hx
    rw [List.foldl_nil, List.sum_nil, Int.natCast_zero, Int.add_zero, Int.emod_eq_of_lt (Int.natCast_nonneg _) (Int.ofNat_lt.2 hx)]
  | cons y l ih =>
    intro x _
    rw [List.foldl_cons, ih (wadd x y) (Nat.mod_lt _ (by decide)), wadd_int, Int.emod_add_emod, List.sum_cons, Int.natCast_add, Int.add_assoc]

theorem refund_eq {o c x : Nat} (hx : x < 2 ^ 256) :
    (((refundWords o c v).foldl wadd x : Nat) : Int) = (x + sstoreRefund o c v) % ((2 ^ 256 : Nat) : Int) := by
  obtain ⟨j, hj⟩ := sum_refund (v := v) (o := o) (c := c)
  rw [foldl_wadd _ x hx, hj, ← Int.add_assoc, Int.add_mul_emod_self_right]

/-- C115 for `SSTORE` and right hints: it faults in a static call, with 2300 gas or less, or if the gas does not suffice; otherwise the slot
has the new value and no other slot a new one, gas and refunds are as specified, the original value is kept, and the journal has
what is needed to undo all this. -/
theorem C115_sstore_partial (hok : StorageOk P w k n qs g m ks h js slot) (hv : v < 2 ^ 256)
    (hi1 : SlotHint w qs (P.addrKey w.self) (P.slotKey slot)) (hi2 : KeyHint (w.skip 1) ks w.self slot)
    (hi3 : v ≠ slotValue P g w.self slot → if v = 0 then SlotPred (w.skip 2) qs (P.addrKey w.self) (P.slotKey slot)
      else SlotHint (w.skip 2) qs (P.addrKey w.self) (P.slotKey slot)) :
    let cold := w.orig h w.self slot = none
    let c := slotValue P g w.self slot
    let o := (w.orig h w.self slot).getD c
    let start := Out.goto (P.addr "sys_sstore") (k :: slot :: v :: S) w
    let fault := w.isStatic ∨ w.gasLimit ≤ k / 2 ^ 192 + 2300 ∨ w.gasLimit < k / 2 ^ 192 + sstoreGas cold o c v
    (fault → ∃ s' w', Reaches P start (.goto (P.addr "fault_exception") s' w')) ∧
    (¬ fault → ∃ w' n' qs' g' m' ks' h', ∃ refunds : List Nat,
      Reaches P start (.exit (k + sstoreGas cold o c v * 2 ^ 192) S w') ∧
      StorageIs w' n' qs' g' m' ks' h' (js ++ (if cold then [[6, w.self, slot]] else []) ++ refunds.map ([8, ·]) ++
        (if v = c then [] else [[5, w.self, slot, c]])) ∧ n' ≤ n + 1 ∧ m' ≤ m + 1 ∧
      (∀ A K, (g' A K).getD 0 = if A = P.addrKey w.self ∧ K = P.slotKey slot then v else (g A K).getD 0) ∧
      (∀ b y, y < 2 ^ 256 → w'.orig h' b y = if b = w.self ∧ y = slot then some o else w.orig h b y) ∧
      (w'.mem refundCell : Int) = (w.mem refundCell + sstoreRefund o c v) % ((2 ^ 256 : Nat) : Int) ∧ w'.mem refundCell = refunds.foldl wadd (w.mem refundCell) ∧
      w'.ctx = w.ctx ∧ ∀ b, ¬ StoreCell b → w'.mem b = w.mem b) := by
  have hcold : (w.orig h w.self slot = none) = (h w.self slot = none) := by simp [World.orig]
  obtain ⟨hP, hS, hM, hR, hX⟩ := hok
  intro cold c o start fault
  have hlog : (if cold then [[6, w.self, slot]] else []) = coldLog h w.self slot := by simp only [cold, hcold, coldLog]
  have hx : (if cold then 2100 else 0) = if h w.self slot = none then 2100 else 0 := by simp only [cold, hcold]
  by_cases hbad : w.isStatic ∨ w.gasLimit ≤ k / 2 ^ 192 + 2300
  · refine ⟨fun _ => ⟨_, _, run_sstore_refused hP hS ?_⟩, fun hn => ?_⟩
    · exact hbad.elim .inl fun e => .inr (by omega)
    · exact absurd (hbad.elim .inl fun e => .inr (.inl e)) hn
  · have hst : w.mem (w.ctx * 2 ^ 64 + 0x600000008) = 0 := Classical.not_not.1 fun e => hbad (.inl e)
    have hgas : ¬ w.gasLimit ≤ k / 2 ^ 192 + 2300 := fun e => hbad (.inr e)
    have := run_sstore_of (S := S) (o := o) (cur := c) (x := if cold then 2100 else 0) hP hS hM hR hX hv hst (by omega)
      (fun ret S' => run_sload_current hP hM.words hS.ctx hM.slots hX.addr hX.hash hi1) hi2 rfl (slotOf_lt hM.words hM.slots hX.hash) hi3 hx
    rw [dirty_eq] at this
    rcases this with ⟨h1, h2⟩ | ⟨h1, w', n', qs', g', m', ks', h', h2, h3, h4, h5, h6, h7, h8, h9⟩
    · exact ⟨fun _ => h2, fun hn => absurd (.inr (.inr h1)) hn⟩
    · refine ⟨fun hf => ?_, fun _ => ⟨w', n', qs', g', m', ks', h', refundWords o c v, h2, ?_, h4, h5, ?_, h7, ?_, h9, h8.1, h8.2.2⟩⟩
      · rcases hf with hf | hf | hf
        · exact absurd (.inl hf) hbad
        · exact absurd hf hgas
        · exact absurd h1 (by omega)
      · rw [hlog, List.append_assoc, List.append_assoc, ← List.append_assoc (coldLog _ _ _)]; exact h3
      · intro A K
        rw [h6]
        by_cases hk : A = P.addrKey w.self ∧ K = P.slotKey slot
        · rw [if_pos hk]
          by_cases hvc : v = c
          · rw [if_pos hvc, hk.1, hk.2]; exact hvc.symm
          · rw [if_neg hvc, upd2, if_pos hk]
            split
            · rename_i e; exact e.symm
            · rfl
        · rw [if_neg hk]
          split
          · rfl
          · rw [upd2, if_neg hk]
      · rw [h9]; exact refund_eq (hM.words _)

/-! ### Examples and the exception -/

/-- A kernel with this code, where every address has the hash 5 and every slot the hash 6. -/
def storeProg : Prog :=
  tableProg (storageCode ++ accessListsCode ++ linkedListCode ++ copyCode ++ [("fault_exception", [PANIC])]) fun l => if l.length = 20 then 5 else 6

/-- Slot 6 of account 5 holds 8; it has been accessed and had the value 99; the account with address 5 executes in context 1 with the gas limit
`l`, and the prover's hints are `i`. -/
def storeWorld (l : Nat) (i : Nat → Nat) : World where
  mem b := if b = 2 ^ 64 + 0x60000000c then l else if b = 2 ^ 64 + 0x600000004 then 5 else
    if b = keyEnd ∨ (keyBase ≤ b ∧ b < keyBase + 8) then accMem b else listMem b
  ctx := 1
  inp := i

theorem storeProg_has : storeProg.Has (storageCode ++ accessListsCode ++ linkedListCode ++ copyCode ++ [("fault_exception", [PANIC])]) :=
  tableProg_has _ _ (by decide +kernel) (by decide +kernel) (by decide +kernel)

theorem storeProg_stores : storeProg.Stores where
  copies := tableProg_copies _ _ (by decide +kernel) (by decide +kernel) (by decide +kernel) (by simp +contextual)
  list := storeProg_has.mono (by simp +contextual)
  access := storeProg_has.mono (by
    intro p hp
    rw [accessCode, List.mem_cons] at hp
    rcases hp with rfl | hp
    · have : ("panic", b_panic) ∈ linkedListCode := by simp [linkedListCode]
      simp [this]
    · simp [hp])
  store := storeProg_has.mono (by simp +contextual)

theorem storeProg_addr (a : Nat) : storeProg.addrKey a = 5 := by
  simp [Prog.addrKey, storeProg, tableProg, wordBytes]

theorem storeProg_slot (a : Nat) : storeProg.slotKey a = 6 := by
  simp [Prog.slotKey, storeProg, tableProg, wordBytes]

variable {l : Nat} {i : Nat → Nat}

theorem storeWorld_list {b : Nat} (h1 : b < 2 ^ 64) (h2 : ¬ (b = keyEnd ∨ (keyBase ≤ b ∧ b < keyBase + 8))) : (storeWorld l i).mem b = listMem b := by
  simp only [storeWorld]
  rw [if_neg (by omega), if_neg (by omega), if_neg h2]

theorem storeWorld_keyMem {b : Nat} (h1 : b < 2 ^ 64) (h2 : b = keyEnd ∨ (keyBase ≤ b ∧ b < keyBase + 8)) : (storeWorld l i).mem b = accMem b := by
  simp only [storeWorld]
  rw [if_neg (by omega), if_neg (by omega), if_pos h2]

theorem storeWorld_zero {b : Nat} (h1 : keyBase + 8 ≤ b) (h2 : b < keyBase + 2 ^ 32) : (storeWorld l i).mem b = accMem b := by
  simp only [keyBase] at h1 h2
  rw [storeWorld_list (by omega) (by simp only [keyEnd, keyBase]; omega)]
  simp only [listMem, accMem, accNext, slotNext, accBase, slotBase, addrEnd, keyEnd, addrBase, keyBase]
  repeat rw [if_neg (by omega)]

theorem storeWorld_words (hl : l < 2 ^ 256) : Words (storeWorld l i) := by
  intro b
  show (if _ then _ else _) < _
  exact ite_lt' hl (ite_lt' (by omega) (ite_lt' (accWorld_words 0 b) (listWorld_words 0 b)))

theorem storeWorld_slots : SlotsAre (storeWorld l i) 3 [slotBase + 5, slotBase + 10] exSlots :=
  (listWorld_slots 0).congr (storeWorld_list (by decide) (by decide)) fun b h1 h2 => by
    simp only [slotBase] at *
    exact storeWorld_list (by omega) (by simp only [keyEnd, keyBase]; omega)

theorem storeWorld_keys : KeysAre (storeWorld l i) 2 [keyBase + 4] exKeys :=
  (accWorld_keys 0).congr (storeWorld_keyMem (by decide) (.inl rfl)) fun b h1 h2 => by
    by_cases h3 : b < keyBase + 8
    · exact storeWorld_keyMem (by simp only [keyBase] at *; omega) (.inr ⟨h1, h3⟩)
    · exact storeWorld_zero (by omega) h2

theorem storeWorld_journal : JournalIs (storeWorld l i) [] where
  len := by rw [storeWorld_list (by decide) (by decide)]; decide
  fits := by simp
  data := by rw [storeWorld_list (by decide) (by decide)]; decide
  entry i h := by simp at h

theorem storeWorld_self : (storeWorld l i).self = 5 := by simp [storeWorld, World.self]
theorem storeWorld_gasLimit : (storeWorld l i).gasLimit = l := by simp [storeWorld, World.gasLimit]

theorem storeWorld_ok (hl : l < 2 ^ 63) (hk : k / 2 ^ 192 ≤ l) (hs : slot < 2 ^ 256) :
    StorageOk storeProg (storeWorld l i) k 3 [slotBase + 5, slotBase + 10] exSlots 2 [keyBase + 4] exKeys [] slot where
  code := storeProg_stores
  serving := ⟨by show 1 < 2 ^ 32; decide, by rw [storeWorld_gasLimit]; exact hk, by rw [storeWorld_gasLimit]; exact hl⟩
  state := ⟨storeWorld_words (by omega), storeWorld_slots, storeWorld_keys, storeWorld_journal⟩
  room := ⟨by decide, by decide, by rw [storeWorld_list (by decide) (by decide)]; decide, by decide⟩
  keys := ⟨by rw [storeWorld_self]; decide, by rw [storeProg_addr]; decide, by rw [storeProg_slot]; decide, hs⟩

/-- The second slot of the list is the right hint. -/
theorem storeWorld_slotHint {w : World} (hw : w.mem = (storeWorld l i).mem) (hi : w.inp 0 = 2) : SlotHint w [slotBase + 5, slotBase + 10] 5 6 := by
  have e1 : listMem (slotBase + 10) = 5 := by decide
  have e2 : listMem (slotBase + 10 + 1) = 6 := by decide
  have e3 : listMem (slotBase + 10 + 4) = slotBase := by decide
  have e4 : listMem slotBase = u256Max := by decide
  simp only [SlotHint, hi, hw, slotKey]
  rw [storeWorld_list (b := slotBase + 5 * 2) (by decide) (by decide), storeWorld_list (b := slotBase + 5 * 2 + 1) (by decide) (by decide),
    storeWorld_list (b := slotBase + 5 * 2 + 4) (by decide) (by decide), e1, e2, e3, storeWorld_list (b := slotBase) (by decide) (by decide), e4]
  refine ⟨by simp, .inr (by omega), ?_⟩
  simp only [u256Max]; omega

theorem storeWorld_slotPred {w : World} (hw : w.mem = (storeWorld l i).mem) (hi : w.inp 0 = 1) : SlotPred w [slotBase + 5, slotBase + 10] 5 6 := by
  have e1 : listMem (slotBase + 10) = 5 := by decide
  have e2 : listMem (slotBase + 10 + 1) = 6 := by decide
  have e3 : listMem (slotBase + 5 * 1 + 4) = slotBase + 10 := by decide
  simp only [SlotPred, hi, hw]
  rw [storeWorld_list (b := slotBase + 5 * 1 + 4) (by decide) (by decide), e3, storeWorld_list (b := slotBase + 10) (by decide) (by decide),
    storeWorld_list (b := slotBase + 10 + 1) (by decide) (by decide), e1, e2]
  exact ⟨by simp, rfl, rfl⟩

theorem storeWorld_keyHint {w : World} (hw : w.mem = (storeWorld l i).mem) (hi : w.inp 0 = keyBase / 4 + 1) (h6 : 6 ≤ slot) (hs : slot < 2 ^ 256) :
    KeyHint w [keyBase + 4] 5 slot := by
  have e0 : 4 * (keyBase / 4 + 1) = keyBase + 4 := by decide
  have e1 : accMem (keyBase + 4) = 5 := by decide
  have e2 : accMem (keyBase + 4 + 1) = 6 := by decide
  have e3 : accMem (keyBase + 4 + 3) = keyBase := by decide
  have e4 : accMem keyBase = u256Max := by decide
  simp only [KeyHint, hi, hw, slotKey, e0]
  rw [storeWorld_keyMem (b := keyBase + 4) (by decide) (by decide), storeWorld_keyMem (b := keyBase + 4 + 1) (by decide) (by decide),
    storeWorld_keyMem (b := keyBase + 4 + 3) (by decide) (by decide), e1, e2, e3, storeWorld_keyMem (b := keyBase) (by decide) (by decide), e4]
  refine ⟨by simp, .inr (by omega), ?_⟩
  simp only [u256Max]; omega

theorem storeWorld_orig6 : (storeWorld l i).orig exKeys 5 6 = some 99 := by
  simp only [World.orig, exKeys, and_self, if_true, Option.map_some]
  rw [storeWorld_keyMem (by decide) (by decide)]
  exact congrArg some (by decide)

theorem storeWorld_orig7 : (storeWorld l i).orig exKeys 5 7 = none := by
  simp [World.orig, exKeys]

theorem storeWorld_value (a slot : Nat) : slotValue storeProg exSlots a slot = 8 := by
  rw [slotValue, storeProg_addr, storeProg_slot]; rfl

theorem storeWorld_static : ¬ (storeWorld l i).isStatic := by
  have : (storeWorld l i).mem (1 * 2 ^ 64 + 0x600000008) = 0 := by
    simp only [storeWorld]
    rw [if_neg (by decide), if_neg (by decide), if_neg (by decide)]
    decide +kernel
  exact fun h => h this

theorem storeWorld_refund : (storeWorld l i).mem refundCell = 0 := by
  rw [storeWorld_list (by decide) (by decide)]; decide

/-- Reading the slot: 8, for 100 gas, as it has been accessed; its original value stays 99. -/
example : ∃ w' h', Reaches storeProg (.goto (storeProg.addr "sys_sload") [17, 6, 1] (storeWorld 100 fun j => if j = 0 then keyBase / 4 + 1 else 2))
    (.exit (100 * 2 ^ 192 + 17) [8, 1] w') ∧ w'.orig h' 5 6 = some 99 := by
  have h := (C115_sload_partial (S := [1]) (storeWorld_ok (l := 100) (i := fun j => if j = 0 then keyBase / 4 + 1 else 2) (k := 17) (slot := 6) (by decide) (by decide) (by decide))
    (by rw [storeWorld_self]; exact storeWorld_keyHint rfl rfl (by decide) (by decide))
    (by rw [storeProg_addr, storeProg_slot]; exact storeWorld_slotHint (w := (storeWorld 100 fun j => if j = 0 then keyBase / 4 + 1 else 2).skip 1) rfl rfl)).2
  simp only [storeWorld_self, storeWorld_orig6, storeWorld_value, storeWorld_gasLimit] at h
  obtain ⟨w', m', ks', h', h1, -, -, h2, -⟩ := h (by decide)
  exact ⟨w', h', h1, by rw [h2 5 6 (by decide)]; rfl⟩

/-- Storing 9 in slot 7, which has the value 8 and has not been accessed: 5000 gas, and nothing is given back. -/
example : ∃ w' h' n' qs' g', Reaches storeProg (.goto (storeProg.addr "sys_sstore") [17, 7, 9] (storeWorld 5000 fun j => if j = 1 then keyBase / 4 + 1 else 2))
    (.exit (5000 * 2 ^ 192 + 17) [] w') ∧ w'.orig h' 5 7 = some 8 ∧ w'.mem refundCell = 0 ∧ SlotsAre w' n' qs' g' ∧ slotValue storeProg g' 5 7 = 9 := by
  have h := (C115_sstore_partial (S := []) (v := 9) (storeWorld_ok (l := 5000) (i := fun j => if j = 1 then keyBase / 4 + 1 else 2) (k := 17) (slot := 7) (by decide) (by decide) (by decide))
    (by decide)
    (by rw [storeProg_addr, storeProg_slot]; exact storeWorld_slotHint rfl rfl)
    (by rw [storeWorld_self]; exact storeWorld_keyHint (w := (storeWorld 5000 fun j => if j = 1 then keyBase / 4 + 1 else 2).skip 1) rfl rfl (by decide) (by decide))
    (fun _ => by
      rw [storeProg_addr, storeProg_slot, if_neg (by decide)]
      exact storeWorld_slotHint (w := (storeWorld 5000 fun j => if j = 1 then keyBase / 4 + 1 else 2).skip 2) rfl rfl)).2
  simp only [storeWorld_self, storeWorld_orig7, storeWorld_value, storeWorld_gasLimit] at h
  obtain ⟨w', n', qs', g', m', ks', h', r, h1, h2, -, -, h3, h4, h5, -⟩ := h (by
    rintro (e | e)
    · exact storeWorld_static e
    · exact absurd e (by decide))
  refine ⟨w', h', n', qs', g', h1, by rw [h4 5 7 (by decide)]; rfl, ?_, h2.slots, by rw [slotValue, h3, storeProg_addr, storeProg_slot]; rfl⟩
  rw [storeWorld_refund] at h5
  have : (((0 : Nat) : Int) + sstoreRefund 8 8 9) % ((2 ^ 256 : Nat) : Int) = 0 := by decide +kernel
  exact Int.ofNat.inj (h5.trans this)

/-- Storing 0 in slot 6, which had the value 99 and has the value 8: 100 gas, and 4800 are given back. -/
example : ∃ w' n' qs' g', Reaches storeProg (.goto (storeProg.addr "sys_sstore") [17, 6, 0] (storeWorld 5000 fun j => if j = 1 then keyBase / 4 + 1 else if j = 2 then 1 else 2))
    (.exit (100 * 2 ^ 192 + 17) [] w') ∧ w'.mem refundCell = 4800 ∧ SlotsAre w' n' qs' g' ∧ slotValue storeProg g' 5 6 = 0 := by
  have h := (C115_sstore_partial (S := []) (v := 0) (storeWorld_ok (l := 5000) (i := fun j => if j = 1 then keyBase / 4 + 1 else if j = 2 then 1 else 2) (k := 17) (slot := 6) (by decide) (by decide) (by decide))
    (by decide)
    (by rw [storeProg_addr, storeProg_slot]; exact storeWorld_slotHint rfl rfl)
    (by rw [storeWorld_self]; exact storeWorld_keyHint (w := (storeWorld 5000 fun j => if j = 1 then keyBase / 4 + 1 else if j = 2 then 1 else 2).skip 1) rfl rfl (by decide) (by decide))
    (fun _ => by
      rw [storeProg_addr, storeProg_slot, if_pos rfl]
      exact storeWorld_slotPred (w := (storeWorld 5000 fun j => if j = 1 then keyBase / 4 + 1 else if j = 2 then 1 else 2).skip 2) rfl rfl)).2
  simp only [storeWorld_self, storeWorld_orig6, storeWorld_value, storeWorld_gasLimit] at h
  obtain ⟨w', n', qs', g', m', ks', h', r, h1, h2, -, -, h3, h4, h5, -⟩ := h (by
    rintro (e | e)
    · exact storeWorld_static e
    · exact absurd e (by decide))
  refine ⟨w', n', qs', g', h1, ?_, h2.slots, by rw [slotValue, h3, storeProg_addr, storeProg_slot]; rfl⟩
  rw [storeWorld_refund] at h5
  have : (((0 : Nat) : Int) + sstoreRefund 99 8 0) % ((2 ^ 256 : Nat) : Int) = 4800 := by decide +kernel
  exact Int.ofNat.inj (h5.trans this)

/-- The exception: the prover names the start of the list as hint for the slot.  Then `SLOAD` of a slot that holds 8 gives 0. -/
theorem C115_sload_violated : ∃ k' w', Reaches storeProg
    (.goto (storeProg.addr "sys_sload") [17, 6, 1] (storeWorld 100 fun j => if j = 0 then keyBase / 4 + 1 else 0)) (.exit k' [0, 1] w') := by
  obtain ⟨hP, hS, hM, hR, hX⟩ := storeWorld_ok (l := 100) (i := fun j => if j = 0 then keyBase / 4 + 1 else 0) (k := 17) (slot := 6) (by decide) (by decide) (by decide)
  rcases run_sload_of (S := [1]) (cur := 0) hP hS hM hR hX (by rw [storeWorld_self]; exact storeWorld_keyHint rfl rfl (by decide) (by decide)) (by decide) (by
    intro w1 ret S' f1 hw1 hK1 hs1 hc1
    have := run_sload_current_start (ret := ret) (S := S') (slot := 6) hP hc1 hK1 (by rw [f1.2.1]; rfl)
    rw [hs1] at this
    exact this) with ⟨h1, -⟩ | ⟨-, w', m', ks', h', h2, -⟩
  · rw [storeWorld_gasLimit, storeWorld_self] at h1
    exact absurd h1 (by decide)
  · exact ⟨_, w', h2⟩

/-- And `SSTORE` of 0 to that slot ends without changing it. -/
theorem C115_sstore_violated : ∃ k' w' n' qs' g', Reaches storeProg
    (.goto (storeProg.addr "sys_sstore") [17, 6, 0] (storeWorld 5000 fun j => if j = 1 then keyBase / 4 + 1 else 0)) (.exit k' [] w') ∧
      SlotsAre w' n' qs' g' ∧ slotValue storeProg g' 5 6 = 8 := by
  obtain ⟨hP, hS, hM, hR, hX⟩ := storeWorld_ok (l := 5000) (i := fun j => if j = 1 then keyBase / 4 + 1 else 0) (k := 17) (slot := 6) (by decide) (by decide) (by decide)
  rcases run_sstore_of (S := []) (cur := 0) (v := 0) (o := 99) (x := 0) hP hS hM hR hX (by decide) (Classical.not_not.1 storeWorld_static)
    (by rw [storeWorld_gasLimit]; decide)
    (fun ret S' => run_sload_current_start hP hS.ctx hM.slots rfl)
    (by rw [storeWorld_self]; exact storeWorld_keyHint (w := (storeWorld 5000 fun j => if j = 1 then keyBase / 4 + 1 else 0).skip 1) rfl rfl (by decide) (by decide))
    (by rw [storeWorld_self, storeWorld_orig6]; rfl) (by decide) (fun e => absurd rfl e) (by rw [storeWorld_self]; rfl) with
    ⟨h1, -⟩ | ⟨-, w', n', qs', g', m', ks', h', h2, h3, -, -, h4, -⟩
  · rw [storeWorld_gasLimit] at h1
    exact absurd h1 (by decide)
  · refine ⟨_, w', n', qs', g', h2, h3.slots, ?_⟩
    rw [h4, if_pos rfl, storeWorld_value]

theorem C115_violated : ¬ C115_statement := by
  intro h
  obtain ⟨k', w', n', qs', g', h1, h2, h3⟩ := C115_sstore_violated
  have := (h storeProg _ 17 _ _ _ _ _ _ _ 6 0 [] [] k' w' (storeWorld_ok (l := 5000) (i := fun j => if j = 1 then keyBase / 4 + 1 else 0) (by decide) (by decide) (by decide))
    (by decide)).2 h1 n' qs' g' h2
  rw [storeWorld_self, h3] at this
  exact absurd this (by decide)

end Verif.Kasm
