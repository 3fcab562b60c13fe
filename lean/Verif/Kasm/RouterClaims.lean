import Verif.Kasm.Router

/-!
C127: the transaction that is executed and the one in the transaction trie.
-/

namespace Verif.Kasm

variable {P : Prog} {S : List Nat} {w w' : World} {ret key nib len : Nat} {t : LegacyTx} {l : List Nat}

/-- The bytes that the prover supplies for a transaction: as many words as its first hint, the length, asks for. -/
def supplied (w : World) : List Nat := tape (fun i => w.inp (i + 1)) ((w.inp 0 + 31) / 32)

/-- What has become of memory once the bytes are read and copied: they are where the kernel looks for transactions, and as many of them as
the length says are a new leaf, at the end of the data of the tries. -/
structure Loaded (w w' : World) : Prop where
  read : HasBytes w' rlpStart (supplied w)
  leafLen : w'.mem (0xc00000000 + w.mem 0x500000002) = w.inp 0
  leaf : HasBytes w' (0xc00000000 + (w.mem 0x500000002 + 1)) ((supplied w).take (w.inp 0))
  size : w'.mem 0x500000002 = w.mem 0x500000002 + 1 + w.inp 0
  ctx : w'.ctx = w.ctx
  else_ : ∀ b, b ≠ 0x500000002 → (b < 0xc00000000 + w.mem 0x500000002 ∨ 0xc00000000 + w.mem 0x500000002 + 1 + w.inp 0 ≤ b) →
    (b < rlpStart ∨ rlpStart + (supplied w).length ≤ b) → w'.mem b = w.mem b

theorem supplied_length : (supplied w).length = 32 * ((w.inp 0 + 31) / 32) := tape_length _ _

theorem HasBytes.take (h : HasBytes w a l) (n : Nat) : HasBytes w a (l.take n) := by
  refine HasBytes.left (l' := l.drop n) ?_
  rw [List.take_append_drop]; exact h

/-- `asm/transactions/router.asm:5-12,51-77`: whatever the prover supplies, the leaf for the transaction holds the first bytes of what the
kernel will read as the transaction, and the insertion is for the key of the transaction. -/
theorem C127_loaded (hP : P.Routers) (hl : w.inp 0 + 32 < 2 ^ 32) (hp : w.mem 0x500000002 + 1 + w.inp 0 < 2 ^ 32 - 1) :
    ∃ w', Reaches P (.goto (P.addr "route_txn") (key :: nib :: ret :: S) w)
      (.goto (P.addr "mpt_insert_txn_trie") (key :: nib :: w.mem 0x500000002 :: P.addr "read_txn_from_memory" :: ret :: S) w') ∧ Loaded w w' := by
  obtain ⟨w1, hw1⟩ : ∃ w1, (w.past ((w.inp 0 + 31) / 32 + 1)).put rlpStart (supplied w) = w1 := ⟨_, rfl⟩
  have hsl := supplied_length (w := w)
  have e1 : w1.mem 0x500000002 = w.mem 0x500000002 := by rw [← hw1]; exact put_below (by decide)
  have h1 : HasBytes w1 rlpStart (supplied w) := by rw [← hw1]; exact (written_put (w := w) rfl rfl).here
  have h2 := h1.take (w.inp 0)
  have h3 := run_update_txn (len := w.inp 0) (key := key) (nib := nib) (S := P.addr "read_txn_from_memory" :: ret :: S) hP h2
    (fun b hb => tape_bytes _ _ b (List.mem_of_mem_take hb)) (by rw [List.length_take]; omega) (by rw [e1]; exact hp)
  rw [e1] at h3
  have htl : ((supplied w).take (w.inp 0)).length = w.inp 0 := by rw [List.length_take]; omega
  refine ⟨(((w1.set 0x500000002 (w.mem 0x500000002 + 1)).set (0xc00000000 + w.mem 0x500000002) (w.inp 0)).put
      (0xc00000000 + (w.mem 0x500000002 + 1)) ((supplied w).take (w.inp 0))).set 0x500000002 (w.mem 0x500000002 + 1 + w.inp 0),
    ?_, ?_, ?_, ?_, ?_, ?_, ?_⟩
  · refine Reaches.trans ?_ (Reaches.trans (run_read_txn (S := key :: nib :: P.addr "read_txn_from_memory" :: ret :: S) (ret := P.addr "update_txn_trie") hP hl) ?_)
    · enter hP.has in routerCode
      rw [b_route_txn]
      kexec []
      exact .refl _
    · change Reaches P (.goto _ _ ((w.past ((w.inp 0 + 31) / 32 + 1)).put rlpStart (supplied w))) _
      rw [hw1]
      exact h3
  · intro i hi
    rw [← h1 i hi]
    simp only [World.set, World.put, rlpStart, htl]
    rw [if_neg (by omega), if_neg (by omega), if_neg (by omega), if_neg (by omega)]
  · simp only [World.set, World.put, htl]
    rw [if_neg (by omega), if_neg (by omega), if_pos trivial]
  · intro i hi
    rw [htl] at hi
    simp only [World.set, World.put, htl]
    rw [if_neg (by omega), if_pos (by omega), Nat.add_sub_cancel_left]
  · simp only [World.set]; rw [if_pos trivial]
  · rw [← hw1]; rfl
  · intro b hb hb1 hb2
    simp only [World.set, World.put, htl]
    rw [if_neg (by omega), if_neg (by omega), if_neg (by omega), if_neg (by omega), ← hw1]
    simp only [World.put]
    rw [if_neg (by omega)]
    rfl

/-- `asm/transactions/router.asm:13-49`: the first byte says which kind of transaction it is. -/
theorem C127_kind (hP : P.Routers) :
    Reaches P (.goto (P.addr "read_txn_from_memory") (ret :: S) w)
      (.goto (if w.mem rlpStart = 1 then P.addr "process_type_1_txn" else if w.mem rlpStart = 2 then P.addr "process_type_2_txn"
        else if w.mem rlpStart = 3 then P.addr "process_type_3_txn" else P.addr "process_type_0_txn") (rlpStart :: ret :: S) w) := by
  enter hP.has in routerCode
  rw [b_read_txn_from_memory]
  kexec [m_eq_const]
  rw [exec_mload_at (by decide)]
  kexec []
  by_cases h1 : w.mem rlpStart = 1
  · rw [h1]; kexec []; exact .refl _
  rw [if_neg h1, if_pos (fun h => h1 h.symm), exec_mload_at (by decide)]
  change Reaches P (exec P _ (w.mem rlpStart :: _) _) _
  kexec []
  by_cases h2 : w.mem rlpStart = 2
  · rw [h2]; kexec []; exact .refl _
  rw [if_neg h2, if_pos (fun h => h2 h.symm), exec_mload_at (by decide)]
  change Reaches P (exec P _ (w.mem rlpStart :: _) _) _
  kexec []
  by_cases h3 : w.mem rlpStart = 3
  · rw [h3]; kexec []; exact .refl _
  rw [if_neg h3, if_pos (fun h => h3 h.symm)]
  exact .refl _

/-- The legacy transaction in memory is the one that is executed. -/
theorem C127_executed (hP : P.Routers) (ht : t.Ok) (hv : t.v = 27 ∨ t.v = 28 ∨ 35 ≤ t.v) (hs : t.s < halfOrder)
    (hc : w.ctx = 0) (hn : w.mem 0x900000001 = 0) (hm : HasBytes w rlpStart t.wire) (hi : ∀ i, w.inp i < 2 ^ 256) :
    Returns P (t.Hints w t.inner.length) (.goto (P.addr "read_txn_from_memory") (ret :: S) w) (P.addr "ecrecover") fun s w' =>
      s = P.hash t.signed :: (27 + t.parity) :: t.r :: t.s :: P.addr "store_origin@type_0" :: ret :: S ∧ Decoded w w' t := by
  have h1 : 0xc0 ≤ w.mem rlpStart := by
    obtain ⟨b, l, e, hb⟩ := rlpHeader_head (b := 0xc0) (n := (t.body ++ (rlpNum t.v ++ (rlpNum t.r ++ rlpNum t.s))).length)
    have hm' := hm
    rw [LegacyTx.wire, rlpList, e, List.cons_append] at hm'
    rw [hm'.head]; exact hb
  have h2 := C127_kind (ret := ret) (S := S) (w := w) hP
  rw [if_neg (by omega), if_neg (by omega), if_neg (by omega)] at h2
  exact .of h2 (C126_legacy hP.t0 ht hv hs hc hn hm hi)

/-- What the kernel does with a legacy transaction whose bytes begin what the prover supplies, whatever length it says they have: `len` of the
bytes become the leaf, and, the insertion of the leaf leaving them alone, all of the transaction is executed. -/
theorem C127_prefix (hP : P.Routers) (hl : w.inp 0 + 32 < 2 ^ 32) (hp : w.mem 0x500000002 + 1 + w.inp 0 < 2 ^ 32 - 1)
    (ht : t.Ok) (hv : t.v = 27 ∨ t.v = 28 ∨ 35 ≤ t.v) (hs : t.s < halfOrder) (hw : t.wire <+: supplied w) :
    ∃ w1, Reaches P (.goto (P.addr "route_txn") (key :: nib :: ret :: S) w)
        (.goto (P.addr "mpt_insert_txn_trie") (key :: nib :: w.mem 0x500000002 :: P.addr "read_txn_from_memory" :: ret :: S) w1) ∧ Loaded w w1 ∧
      ∀ w2 : World, (∀ b, rlpStart ≤ b → b < rlpStart + t.wire.length → w2.mem b = w1.mem b) → w2.ctx = 0 → w2.mem 0x900000001 = 0 →
        (∀ i, w2.inp i < 2 ^ 256) →
        Returns P (t.Hints w2 t.inner.length) (.goto (P.addr "read_txn_from_memory") (ret :: S) w2) (P.addr "ecrecover") fun s w3 =>
          s = P.hash t.signed :: (27 + t.parity) :: t.r :: t.s :: P.addr "store_origin@type_0" :: ret :: S ∧ Decoded w2 w3 t := by
  obtain ⟨w1, h1, h2⟩ := C127_loaded (key := key) (nib := nib) (ret := ret) (S := S) hP hl hp
  refine ⟨w1, h1, h2, fun w2 hm hc hn hi => C127_executed hP ht hv hs hc hn ?_ hi⟩
  obtain ⟨r, hr⟩ := hw
  have h3 := h2.read
  rw [← hr] at h3
  intro i hi
  rw [hm _ (by omega) (by omega), h3.left i hi]

/-- If the leaf is a legacy transaction, that transaction is executed. -/
theorem C127_in_trie_partial (hP : P.Routers) (hl : w.inp 0 + 32 < 2 ^ 32) (hp : w.mem 0x500000002 + 1 + w.inp 0 < 2 ^ 32 - 1)
    (ht : t.Ok) (hv : t.v = 27 ∨ t.v = 28 ∨ 35 ≤ t.v) (hs : t.s < halfOrder) (hw : (supplied w).take (w.inp 0) = t.wire) :
    ∃ w1, Reaches P (.goto (P.addr "route_txn") (key :: nib :: ret :: S) w)
        (.goto (P.addr "mpt_insert_txn_trie") (key :: nib :: w.mem 0x500000002 :: P.addr "read_txn_from_memory" :: ret :: S) w1) ∧
      w1.mem (0xc00000000 + w.mem 0x500000002) = t.wire.length ∧ HasBytes w1 (0xc00000000 + (w.mem 0x500000002 + 1)) t.wire ∧
      ∀ w2 : World, (∀ b, rlpStart ≤ b → b < rlpStart + t.wire.length → w2.mem b = w1.mem b) → w2.ctx = 0 → w2.mem 0x900000001 = 0 →
        (∀ i, w2.inp i < 2 ^ 256) →
        Returns P (t.Hints w2 t.inner.length) (.goto (P.addr "read_txn_from_memory") (ret :: S) w2) (P.addr "ecrecover") fun s w3 =>
          s = P.hash t.signed :: (27 + t.parity) :: t.r :: t.s :: P.addr "store_origin@type_0" :: ret :: S ∧ Decoded w2 w3 t := by
  obtain ⟨w1, h1, h2, h3⟩ := C127_prefix (key := key) (nib := nib) (ret := ret) (S := S) hP hl hp ht hv hs (by rw [← hw]; exact List.take_prefix _ _)
  have hsl := supplied_length (w := w)
  refine ⟨w1, h1, ?_, ?_, h3⟩
  · rw [h2.leafLen, ← hw, List.length_take]; omega
  · rw [← hw]; exact h2.leaf

/-- The full claim: a legacy transaction that is executed is the leaf in the transaction trie. -/
def C127_statement : Prop :=
  ∀ (P : Prog) (S : List Nat) (key nib ret : Nat) (w w1 w2 w3 : World) (t : LegacyTx), P.Routers → t.Ok →
    Reaches P (.goto (P.addr "route_txn") (key :: nib :: ret :: S) w)
      (.goto (P.addr "mpt_insert_txn_trie") (key :: nib :: w.mem 0x500000002 :: P.addr "read_txn_from_memory" :: ret :: S) w1) →
    w2.mem = w1.mem → w2.ctx = w1.ctx →
    Reaches P (.goto (P.addr "read_txn_from_memory") (ret :: S) w2)
      (.goto (P.addr "ecrecover") (P.hash t.signed :: (27 + t.parity) :: t.r :: t.s :: P.addr "store_origin@type_0" :: ret :: S) w3) →
    Decoded w2 w3 t →
    w1.mem (0xc00000000 + w.mem 0x500000002) = t.wire.length ∧ HasBytes w1 (0xc00000000 + (w.mem 0x500000002 + 1)) t.wire

/-! ### The example -/

def routerProg : Prog := tableProg (routerCode ++ (type0Code ++ rlpCode ++ copyCode ++ [("panic", b_panic)])) List.sum

theorem routerProg_has : routerProg.Routers := by
  have h : routerProg.Has (routerCode ++ (type0Code ++ rlpCode ++ copyCode ++ [("panic", b_panic)])) :=
    tableProg_has _ _ (by decide +kernel) (by decide +kernel) (by decide +kernel)
  refine ⟨⟨⟨tableProg_copies _ _ (by decide +kernel) (by decide +kernel) (by decide +kernel) ?_, h.mono ?_, h.mono ?_⟩, h.mono ?_⟩, h.mono ?_⟩
  · intro p hp; simp [hp]
  · intro p hp; simp [hp]
  · intro p hp; simp only [List.mem_singleton] at hp; simp [hp]
  · intro p hp; simp [hp]
  · intro p hp; simp [hp]

/-- The words of `tx155`, and `len` as its length. -/
def tape155 (len : Nat) : World where
  mem _ := 0
  ctx := 0
  inp i := if i = 0 then len else beVal (((tx155.wire ++ List.replicate 18 0).drop (32 * (i - 1))).take 32)

/-- The theorem about transactions in the trie applies to it. -/
example : (supplied (tape155 110)).take 110 = tx155.wire := by decide +kernel

/-- The prover says that the transaction is 97 bytes long. The leaf is without its last 13 bytes; the transaction is executed. -/
theorem C127_truncated_violated : ¬ C127_statement := by
  intro hall
  obtain ⟨w1, h1, h2, h3⟩ := C127_prefix (P := routerProg) (w := tape155 97) (t := tx155) (key := 0x80) (nib := 2) (ret := 77) (S := []) routerProg_has
    (by decide) (by decide) tx155_ok (.inr (.inr (by decide))) (by decide) (by decide +kernel)
  have hn : w1.mem 0x900000001 = 0 :=
    h2.else_ _ (by decide) (.inl (by decide)) (.inl (by decide))
  obtain ⟨s, w3, h4, rfl, h5⟩ := (h3 { w1 with inp := fun _ => 0 } (fun _ _ _ => rfl) h2.ctx hn (fun _ => by show 0 < _; decide)).sure
    (by rw [LegacyTx.Hints, if_neg (by decide)]; exact ⟨fun h => absurd h (by decide), fun h => absurd h (by decide +kernel)⟩)
  have h6 := (hall routerProg [] 0x80 2 77 (tape155 97) w1 { w1 with inp := fun _ => 0 } w3 tx155 routerProg_has tx155_ok h1 rfl rfl h4 h5).1
  rw [h2.leafLen] at h6
  exact absurd h6 (by decide +kernel)

end Verif.Kasm
