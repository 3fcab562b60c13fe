import Verif.Kasm.Blob
import Verif.Kasm.TransferClaims
import Verif.Kasm.Selfdestruct

/-!
C130: what a sender pays for blobs.
-/

namespace Verif.Kasm

variable {P : Prog} {S : List Nat} {w w' : World} {ret n k a c : Nat} {ps ts : List Nat} {f : Nat → Option Nat} {js : List (List Nat)}

/-- EIP-4844: every blob is 2^17 gas, at the price of blob gas. -/
def blobFee (blobs price : Nat) : Nat := 131072 * blobs * price

theorem blob_mul {p : Nat} (hc : c < 2 ^ 32) : wmul p (wmul (wdiv (33 * c) 33) 131072) = blobFee c p % 2 ^ 256 := by
  have e : wdiv (33 * c) 33 = c := by rw [wdiv, if_neg (by decide)]; omega
  rw [e, wmul, wmul, Nat.mod_eq_of_lt (a := c * 131072) (by omega), blobFee, Nat.mul_comm c, Nat.mul_comm p]

/-- `asm/transactions/type_3.asm:83-118`. -/
theorem run_blob_origin (hP : P.Blobs) (h : StateIs w n ps f js ts) (hr : StateRoom w js ts (k + 1)) (ha : P.addrKey a < u256Max) (ha' : a < 2 ^ 256 - 1)
    (hi : AccHonest w 1 ps (P.addrKey a)) (hl : w.mem 0x500000034 = 33 * c) (hc : c < 2 ^ 32) :
    ∃ w', StateIs w' n ps f (js ++ touchLog ts a) (touchList ts a) ∧ StateRoom w' (js ++ touchLog ts a) (touchList ts a) k ∧
      Shift 2 BalCell (w.set 0x90000000f a) w' ∧
      ((∃ A, w.accts f (P.addrKey a) = some A ∧ blobFee c (w.inp 0) % 2 ^ 256 ≤ A.balance ∧
        w'.accts f = updAcct (w.accts f) (P.addrKey a) (taken A (blobFee c (w.inp 0) % 2 ^ 256)) ∧ w'.mem 0x90000000f = a ∧
        Reaches P (.goto (P.addr "store_origin@type_3") (a :: ret :: S) w) (.goto (P.addr "process_normalized_txn") (ret :: S) w')) ∨
      ((∀ A, w.accts f (P.addrKey a) = some A → A.balance < blobFee c (w.inp 0) % 2 ^ 256) ∧
        Reaches P (.goto (P.addr "store_origin@type_3") (a :: ret :: S) w) .panic)) := by
  have hs : StateIs w.next n ps f js ts := h.congr (fun b => h.words b) fun b _ => rfl
  have hr' : StateRoom w.next js ts (k + 1) := ⟨hr.data, hr.journal, hr.touched⟩
  obtain ⟨w1, f1, s1, r1, hd⟩ := run_deduct (x := blobFee c (w.inp 0) % 2 ^ 256) (ret := P.addr "type_3@30.after") (S := a :: ret :: S)
    hP.pays hs hr' ha (by omega) hi
  have hpre : Reaches P (.goto (P.addr "store_origin@type_3") (a :: ret :: S) w)
      (.goto (P.addr "deduct_eth") (a :: blobFee c (w.inp 0) % 2 ^ 256 :: P.addr "type_3@30.after" :: a :: ret :: S) w.next) := by
    enter hP.has in type3Code
    rw [b_store_origin_type_3]
    kexec [m_eq_const]
    rw [if_pos (by omega), m_compute_blob_gas_fee, m_get_blob_versioned_hashes_list_length]
    kexec []
    rw [exec_load_global (by decide), hl]
    kexec []
    rw [exec_input']
    kexec []
    rw [blob_mul hc]
    exact .refl _
  have hcell : StateIs (w1.set 0x90000000f a) n ps f (js ++ touchLog ts a) (touchList ts a) :=
    s1.congr (s1.words.set (by omega)) fun b hb => set_ne (by
      simp only [StateCell, JourArea, TouchArea, touchLen, touchBase, jourLen, jdatLen, jourBase, jdatBase, accBase, accNext] at hb; omega)
  have hsh : Shift 2 BalCell (w.set 0x90000000f a) (w1.set 0x90000000f a) := by
    refine ⟨f1.1, fun j => f1.2.1 j, fun b hb => ?_⟩
    by_cases e : b = 0x90000000f
    · rw [e, set_same, set_same]
    · rw [set_ne e, set_ne e, f1.2.2 b hb]; rfl
  refine ⟨w1.set 0x90000000f a, hcell, ⟨?_, r1.journal, r1.touched⟩, hsh, ?_⟩
  · rw [set_ne (by simp only [jdatLen]; omega)]; exact r1.data
  rcases hd with ⟨A, h1, h2, h3, h4⟩ | ⟨h1, -, h4⟩
  · refine .inl ⟨A, h1, h2, ?_, set_same, (hpre.trans h4).trans ?_⟩
    · rw [s1.accts_congr (w' := w1.set 0x90000000f a) fun b h1 h2 => set_ne (by omega), h3]; rfl
    · enter hP.has in type3Code
      rw [b_type_3_30_after]
      kexec [m_mstore_txn_field]
      rw [exec_mstore_at (by decide)]
      kexec []
      exact .refl _
  · refine .inr ⟨h1, (hpre.trans h4).trans ?_⟩
    enter hP.has in type3Code
    rw [b_type_3_30_after]
    kexec []
    exact rlp_panic hP.rlps

/-! ### The claims -/

/-- The hashes of the blobs.  Those of a transaction are stored in their order, with the most that its sender pays for blob gas; a transaction
with no blob, or with a hash of another version, is refused. -/
theorem C130_hashes {m : Nat} {hs : List (List Nat)} {l : List Nat} (hP : P.Blobs) (hm0 : m < 2 ^ 256) (hf : ∀ x ∈ hs, HashFits x) (ha : rlpStart ≤ a)
    (hu : a + (rlpNum m ++ (rlpList (hashRlp hs) ++ l)).length ≤ 0xc00000000) (hm : Rest w a (rlpNum m ++ (rlpList (hashRlp hs) ++ l))) :
    (hs ≠ [] → (∀ x ∈ hs, Versioned x) → ∃ w',
      Reaches P (.goto (P.addr "type_3@18.after") (a :: S) w)
        (.goto (P.addr "type_3@21.after") ((a + (rlpNum m ++ rlpList (hashRlp hs)).length) :: S) w') ∧
      w'.mem 0x90000000b = m ∧ w'.mem 0x500000034 = 33 * hs.length ∧ (∀ i (hi : i < hs.length), w'.mem (0x2600000000 + i) = beVal hs[i]) ∧
      (∀ b, b ≠ 0x90000000b → b ≠ 0x500000034 → (b < 0x2600000000 ∨ 0x2600000000 + hs.length ≤ b) → w'.mem b = w.mem b) ∧
      w'.ctx = w.ctx ∧ w'.inp = w.inp) ∧
    (hs = [] → ∃ s w', Reaches P (.goto (P.addr "type_3@18.after") (a :: S) w) (.goto (P.addr "invalid_txn_2") s w')) ∧
    ((∃ x ∈ hs, ¬ Versioned x) → ∃ s w', Reaches P (.goto (P.addr "type_3@18.after") (a :: S) w) (.goto (P.addr "invalid_txn_3") s w')) := by
  have hlen := hashRlp_length hf
  have hshort : hs.length < 2 ^ 32 := by
    simp only [rlpList, List.length_append, rlpStart] at hu ha
    omega
  rcases run_blob_part (S := S) hP hm0 hf ha hu hm with ⟨h1, h2, h3⟩ | ⟨h1, h3⟩ | ⟨⟨x, hx, h1⟩, h3⟩
  · refine ⟨fun _ _ => ⟨_, h3, ?_, ?_, fun i hi => ?_, fun b g1 g2 g3 => ?_, rfl, rfl⟩, fun h => absurd h h1, fun ⟨x, hx, hn⟩ => absurd (h2 x hx) hn⟩
    · simp only [blobStored, World.put, World.set]
      rw [if_neg (by omega), if_neg (by omega), if_pos trivial]
    · simp only [blobStored, World.put, World.set]
      rw [if_neg (by omega), if_pos trivial]
    · simp only [blobStored, World.put, List.length_map]
      rw [if_pos (by omega), Nat.add_sub_cancel_left, List.getD_eq_getElem?_getD, List.getElem?_eq_getElem (by simpa using hi), Option.getD_some, List.getElem_map]
    · simp only [blobStored, World.put, World.set, List.length_map]
      rw [if_neg (by omega), if_neg g2, if_neg g1]
  · refine ⟨fun h => absurd h1 h, fun _ => h3, fun ⟨x, hx, _⟩ => ?_⟩
    rw [h1] at hx; cases hx
  · refine ⟨fun _ h => absurd (h x hx) h1, fun h => ?_, fun _ => h3⟩
    rw [h] at hx; cases hx

/-- What holds when the sender of a transaction with `c` blobs has been recovered. -/
structure BlobAt (P : Prog) (w : World) (n : Nat) (ps : List Nat) (f : Nat → Option Nat) (js : List (List Nat)) (ts : List Nat) (a c : Nat) : Prop where
  code : P.Blobs
  state : StateIs w n ps f js ts
  room : StateRoom w js ts 1
  key : P.addrKey a < u256Max
  sender : a < 2 ^ 256 - 1
  hint : AccHonest w 1 ps (P.addrKey a)
  blobs : w.mem 0x500000034 = 33 * c
  few : c < 2 ^ 32

/-- The fee for the blobs is taken from the sender, and the proof ends if they do not have it: 2^17 times their number times a price.  The price is
what the prover says. -/
theorem C130_fee_partial (h : BlobAt P w n ps f js ts a c) (hx : blobFee c (w.inp 0) < 2 ^ 256) :
    (∀ A, w.accts f (P.addrKey a) = some A → blobFee c (w.inp 0) ≤ A.balance → ∃ w' js' ts',
      Reaches P (.goto (P.addr "store_origin@type_3") (a :: ret :: S) w) (.goto (P.addr "process_normalized_txn") (ret :: S) w') ∧
      StateIs w' n ps f js' ts' ∧ w'.mem 0x90000000f = a ∧
      w'.accts f (P.addrKey a) = some { A with balance := A.balance - blobFee c (w.inp 0) } ∧
      (∀ k, k ≠ P.addrKey a → w'.accts f k = w.accts f k)) ∧
    ((∀ A, w.accts f (P.addrKey a) = some A → A.balance < blobFee c (w.inp 0)) →
      Reaches P (.goto (P.addr "store_origin@type_3") (a :: ret :: S) w) .panic) := by
  obtain ⟨w', h1, -, -, h2⟩ := run_blob_origin (ret := ret) (S := S) h.code h.state h.room h.key h.sender h.hint h.blobs h.few
  rw [Nat.mod_eq_of_lt hx] at h2
  rcases h2 with ⟨A, g1, g2, g3, g4, g5⟩ | ⟨g1, g2⟩
  · refine ⟨fun B hB _ => ?_, fun hh => absurd g2 (by have := hh A g1; omega)⟩
    rw [g1] at hB; cases hB
    refine ⟨w', _, _, g5, h1, g4, ?_, fun k hk => ?_⟩
    · rw [g3, updAcct, if_pos rfl, taken]
    · rw [g3, updAcct, if_neg hk]
  · exact ⟨fun B hB hb => absurd (g1 B hB) (by omega), fun _ => g2⟩

/-- No valid signature: no proof. -/
theorem C130_no_origin (hP : P.Blobs) : Reaches P (.goto (P.addr "store_origin@type_3") ((2 ^ 256 - 1) :: ret :: S) w) .panic := by
  enter hP.has in type3Code
  rw [b_store_origin_type_3]
  kexec [m_eq_const]
  exact rlp_panic hP.rlps

/-- C130 in full: there is one price, given by what the kernel knows of the block and the transaction, at which blob gas is paid, and it is at most what
the sender agreed to (`TXN_FIELD_MAX_FEE_PER_BLOB_GAS`). -/
def C130_statement : Prop := ∃ price : (Nat → Nat) → Nat, ∀ (P : Prog) (w w' : World) (n a c ret : Nat) (ps ts ts' S : List Nat) (f : Nat → Option Nat) (js js' : List (List Nat)),
  BlobAt P w n ps f js ts a c →
  Reaches P (.goto (P.addr "store_origin@type_3") (a :: ret :: S) w) (.goto (P.addr "process_normalized_txn") (ret :: S) w') → StateIs w' n ps f js' ts' →
  price w.mem ≤ w.mem 0x90000000b ∧ balanceOf (w'.accts f) (P.addrKey a) + blobFee c (price w.mem) = balanceOf (w.accts f) (P.addrKey a)

/-! ### Example, and why it fails -/

def blobCode : List (String × List I) :=
  type3Code ++ accessListCode ++ rlpCode ++ transferCode ++ touchedCode ++ stateReadCode ++ linkedListCode ++ copyCode

/-- A kernel whose hash of an address is the sum of its bytes. -/
def blobProg : Prog := tableProg blobCode List.sum

theorem blobProg_has : blobProg.Has blobCode := tableProg_has _ _ (by decide +kernel) (by decide +kernel) (by decide +kernel)

theorem blobProg_copies : blobProg.Copies :=
  tableProg_copies _ _ (by decide +kernel) (by decide +kernel) (by decide +kernel) (by simp +contextual [blobCode])

theorem blobProg_blobs : blobProg.Blobs where
  rlps := ⟨blobProg_copies, blobProg_has.mono (by simp +contextual [blobCode]), blobProg_has.mono fun p hp => by
    simp only [List.mem_singleton] at hp; rw [hp]
    have : ("panic", b_panic) ∈ linkedListCode := by simp [linkedListCode]
    simp [blobCode, this]⟩
  has := blobProg_has.mono (by simp +contextual [blobCode])
  lists := blobProg_has.mono (by simp +contextual [blobCode])
  pays := ⟨⟨blobProg_copies, blobProg_has.mono (by simp +contextual [blobCode]), blobProg_has.mono (by simp +contextual [blobCode])⟩,
    blobProg_has.mono (by simp +contextual [blobCode]), blobProg_has.mono (by simp +contextual [blobCode])⟩

/-- The account 5 has 10^6 wei and sends one blob.  The prover says the price is `p`. -/
def blobWorld (p : Nat) : World :=
  { (txnWorld 0 0 0 0 1000000).set 0x500000034 33 with inp := fun i => if i = 0 then p else (accBase + 4) / 4 }

theorem blobWorld_at (p : Nat) : BlobAt blobProg (blobWorld p) 2 [accBase + 4] exAccounts [] [] 5 1 where
  code := blobProg_blobs
  state :=
    have h := txnWorld_state (g := 0) (prio := 0) (fee := 0) (v := 0) (bal := 1000000) (by omega) (by omega) (by omega) (by omega) (by omega)
    h.congr (fun b => (h.words.set (a := 0x500000034) (v := 33) (by omega)) b) fun b hb => set_ne (by
      simp only [StateCell, JourArea, TouchArea, touchLen, touchBase, jourLen, jdatLen, jourBase, jdatBase, accBase, accNext] at hb; omega)
  room := ⟨by show ((txnWorld 0 0 0 0 1000000).set 0x500000034 33).mem jdatLen + 4 * 1 ≤ _; decide +kernel, by decide, by decide⟩
  key := by decide +kernel
  sender := by omega
  hint := by
    rw [show blobProg.addrKey 5 = 5 by decide +kernel]
    exact show AccHonest (blobWorld 0) 1 [accBase + 4] 5 from ⟨by decide, .inr (by decide +kernel), by decide +kernel⟩
  blobs := rfl
  few := by omega

/-- For every price the prover can make the sender pay it, up to all they have, whatever they agreed to (here: nothing). -/
theorem C130_any_price (p : Nat) (hp : 131072 * p ≤ 1000000) : ∃ w' js' ts',
    Reaches blobProg (.goto (blobProg.addr "store_origin@type_3") [5, 17] (blobWorld p)) (.goto (blobProg.addr "process_normalized_txn") [17] w') ∧
    StateIs w' 2 [accBase + 4] exAccounts js' ts' ∧ (blobWorld p).mem 0x90000000b = 0 ∧ balanceOf (w'.accts exAccounts) 5 + 131072 * p = 1000000 := by
  have e : (blobWorld p).accts exAccounts 5 = some ⟨0, 1000000, emptyHash⟩ := by
    rw [← txnWorld_accts (g := 0) (prio := 0) (fee := 0) (v := 0)]; rfl
  have k5 : blobProg.addrKey 5 = 5 := by decide +kernel
  have ef : blobFee 1 ((blobWorld p).inp 0) = 131072 * p := by show 131072 * 1 * p = _; rw [Nat.mul_one]
  obtain ⟨h1, -⟩ := C130_fee_partial (ret := 17) (S := []) (blobWorld_at p) (by rw [ef]; omega)
  rw [k5, ef] at h1
  obtain ⟨w', js', ts', g1, g2, -, g3, -⟩ := h1 _ e hp
  refine ⟨w', js', ts', g1, g2, ?_, ?_⟩
  · show ((txnWorld 0 0 0 0 1000000).set 0x500000034 33).mem 0x90000000b = 0
    decide +kernel
  · simp only [balanceOf, g3]
    omega

theorem C130_violated : ¬ C130_statement := by
  rintro ⟨price, h⟩
  have k5 : blobProg.addrKey 5 = 5 := by decide +kernel
  obtain ⟨w', js', ts', g1, g2, g3, g4⟩ := C130_any_price 1 (by omega)
  obtain ⟨i1, i2⟩ := h _ _ _ _ _ _ _ _ _ _ _ _ _ _ (blobWorld_at 1) g1 g2
  have e : balanceOf ((blobWorld 1).accts exAccounts) 5 = 1000000 := by decide +kernel
  rw [k5, e] at i2
  rw [g3] at i1
  have : price (blobWorld 1).mem = 0 := by omega
  rw [this, blobFee] at i2
  omega

/-- A sender can be spared the fee altogether. -/
example := C130_any_price 0 (by omega)

/-- Seven times 2^17 wei are all that they can pay; at a price of 8 there is no proof. -/
example : Reaches blobProg (.goto (blobProg.addr "store_origin@type_3") [5, 17] (blobWorld 8)) .panic := by
  refine (C130_fee_partial (blobWorld_at 8) (by decide)).2 fun A hA => ?_
  rw [show blobProg.addrKey 5 = 5 by decide +kernel, show (blobWorld 8).accts exAccounts 5 = some ⟨0, 1000000, emptyHash⟩ by
    rw [← txnWorld_accts (g := 0) (prio := 0) (fee := 0) (v := 0)]; rfl] at hA
  cases hA
  decide

/-- A hash with the version, and one without. -/
def exHash (v : Nat) : List Nat := v :: List.replicate 31 7

theorem exHash_fits {v : Nat} (hv : v < 256) : HashFits (exHash v) :=
  ⟨rfl, fun b hb => by
    simp only [exHash, List.mem_cons, List.mem_replicate] at hb
    omega⟩

/-- The part of a transaction with two hashes, the second beginning with `v`. -/
def exHashes (v : Nat) : List (List Nat) := [exHash 1, exHash v]

def hashWorld (v : Nat) : World := (txnWorld 0 0 0 0 0).put rlpStart (rlpNum 9 ++ (rlpList (hashRlp (exHashes v)) ++ []))

theorem exHashes_length {v : Nat} (hv : v = 1 ∨ v = 2) : (rlpNum 9 ++ rlpList (hashRlp (exHashes v))).length = 69 := by
  rcases hv with rfl | rfl <;> decide +kernel

theorem hashWorld_rest {v : Nat} (hv : v = 1 ∨ v = 2) : Rest (hashWorld v) rlpStart (rlpNum 9 ++ (rlpList (hashRlp (exHashes v)) ++ [])) :=
  ⟨by rw [List.append_nil, exHashes_length hv]; exact ⟨by decide, by decide, by decide⟩, (written_put (w := txnWorld 0 0 0 0 0) (w' := txnWorld 0 0 0 0 0) rfl rfl).here⟩

theorem exHashes_fit {v : Nat} (hv : v < 256) : ∀ x ∈ exHashes v, HashFits x := by
  intro x hx
  simp only [exHashes, List.mem_cons, List.not_mem_nil, or_false] at hx
  rcases hx with rfl | rfl
  · exact exHash_fits (by decide)
  · exact exHash_fits hv

/-- Both hashes are stored. -/
example : ∃ w', Reaches blobProg (.goto (blobProg.addr "type_3@18.after") [rlpStart] (hashWorld 1)) (.goto (blobProg.addr "type_3@21.after") [rlpStart + 69] w') ∧
    w'.mem 0x90000000b = 9 ∧ w'.mem 0x500000034 = 66 ∧ w'.mem 0x2600000000 = beVal (exHash 1) ∧ w'.mem 0x2600000001 = beVal (exHash 1) := by
  obtain ⟨h, -, -⟩ := C130_hashes (S := []) blobProg_blobs (m := 9) (by decide) (exHashes_fit (v := 1) (by decide)) (Nat.le_refl _)
    (by rw [List.append_nil, exHashes_length (by omega)]; decide) (hashWorld_rest (v := 1) (by omega))
  obtain ⟨w', h1, h2, h3, h4, -⟩ := h (by simp [exHashes]) (by simp [exHashes, Versioned, exHash])
  rw [exHashes_length (by omega)] at h1
  exact ⟨w', h1, h2, h3, h4 0 (by decide), h4 1 (by decide)⟩

/-- A hash of version 2 is refused. -/
example : ∃ s w', Reaches blobProg (.goto (blobProg.addr "type_3@18.after") [rlpStart] (hashWorld 2)) (.goto (blobProg.addr "invalid_txn_3") s w') :=
  (C130_hashes (S := []) blobProg_blobs (m := 9) (by decide) (exHashes_fit (v := 2) (by decide)) (Nat.le_refl _)
    (by rw [List.append_nil, exHashes_length (by omega)]; decide) (hashWorld_rest (v := 2) (by omega))).2.2
    ⟨exHash 2, by simp [exHashes], by simp [Versioned, exHash]⟩

end Verif.Kasm
