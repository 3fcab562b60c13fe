import Verif.Kasm.TypedClaims
import Verif.Kasm.BlobClaims
import Verif.Kasm.TxnClaims

/-!
C132: where the kernel goes on after it has refused a transaction while reading it.
-/

namespace Verif.Kasm

variable {P : Prog} {S : List Nat} {w w' : World} {ret a : Nat} {t : TypedTx}

/-- A transaction of kind 2 whose recipient is neither an address nor empty, in the memory where transactions are read from. -/
structure BadTo (w : World) (t : TypedTx) : Prop where
  type : t.type = 2
  chain : t.chain < 2 ^ 256
  nonce : t.nonce < 2 ^ 256
  tip : t.tip < 2 ^ 256
  fee : t.fee < 2 ^ 256
  gas : t.gas < 2 ^ 256
  notEmpty : t.to.length ≠ 0
  noAddress : t.to.length ≠ 20
  short : t.wire.length + 1 < 2 ^ 32
  bytes : HasBytes w rlpStart t.wire

/-- C132 in full: a transaction that is refused is one without effect, so the loop over the transactions goes on after it with what it had on the stack before (the gas used so far, the number of the
transaction, …: `S`), no success and all the gas left over. -/
def C132_statement : Prop :=
  ∀ (P : Prog) (w : World) (t : TypedTx) (S : List Nat), P.Type2s → P.Has processTxnCode → BadTo w t →
    ∃ w', Reaches P (.goto (P.addr "process_type_2_txn") (rlpStart :: P.addr "txn_loop_after" :: S) w) (.goto (P.addr "txn_loop_after") (0 :: t.gas :: S) w')

theorem run_refuse {x : Nat} (hP : P.Has processTxnCode) :
    Reaches P (.goto (P.addr "invalid_txn") (x :: S) w) (.goto (P.addr "txn_loop_after") (0 :: w.mem 0x900000006 :: S) w) := by
  enter hP in processTxnCode
  rw [b_invalid_txn]
  kexec []
  rw [exec_load_txn (by omega)]
  kexec []
  exact .refl _

theorem run_refuse_2 {x y z : Nat} (hP : P.Has processTxnCode) :
    Reaches P (.goto (P.addr "invalid_txn_2") (x :: y :: z :: S) w) (.goto (P.addr "txn_loop_after") (0 :: w.mem 0x900000006 :: S) w) := by
  enter hP in processTxnCode
  rw [b_invalid_txn_2]
  kexec [m_pop3, rep]
  rw [exec_load_txn (by omega)]
  kexec []
  exact .refl _

/-- What happens instead: the loop goes on without success and with all the gas left over, but above what it had on the stack lie three more words, and the one in the place of the gas used so
far is an address of the memory where transactions are read from. Missing: that they are taken off. -/
theorem C132_partial (hP : P.Type2s) (hQ : P.Has processTxnCode) (h : BadTo w t) : ∃ w' b,
    Reaches P (.goto (P.addr "process_type_2_txn") (rlpStart :: ret :: S) w) (.goto (P.addr "txn_loop_after") (0 :: t.gas :: b :: t.bodyAt :: ret :: S) w') ∧
    rlpStart ≤ b := by
  obtain ⟨hk, hch, hn, hp, hf, hg, h0, h20, hshort, hm⟩ := h
  have hr : Rest w rlpStart t.wire := ⟨⟨by decide, by decide, by simp only [rlpStart]; omega⟩, hm⟩
  have hhead := run_type2_head (ret := ret) (S := S) hP hk hr
  have hr0 := typed_rest hr
  change Rest w t.bodyAt _ at hr0
  change Reaches P _ (.goto _ (t.bodyAt :: _) _) at hhead
  have hge : rlpStart ≤ t.bodyAt := by simp only [TypedTx.bodyAt]; omega
  rw [TypedTx.body] at hr0
  simp only [List.append_assoc] at hr0
  have hfee := run_type2_fees (n := (t.body ++ t.sig).length) (ret := ret) (S := S) hP hk hch hn hp hf hg hge hr0
  have hr2 := rest_t1 (t := t) hr0.right (by omega)
  obtain ⟨b, e, hb, hs⟩ := run_decode_string (ret := P.addr "type_2@13.after") (S := t.bodyAt :: ret :: S) hP.rlps hr2.left.span hr2.left.2
  have hle : t.to.length ≤ (rlpStr t.to).length := by
    rcases rlpStr_cases t.to with ⟨x, -, e1, e2⟩ | e2
    · rw [e2, e1]; exact Nat.le_refl _
    · rw [e2, List.length_append]; omega
  refine ⟨t.w1 w, b, ((hhead.trans hfee).trans hs).trans ?_, by omega⟩
  have hgas : (t.w1 w).mem 0x900000006 = t.gas := by simp [TypedTx.w1, World.set]
  rw [← hgas]
  refine .trans ?_ (run_refuse (x := t.to.length) hQ)
  enter hP.has in type2Code
  rw [b_type_2_13_after]
  kexec [m_eq_const]
  rw [if_pos h0]
  rw [if_neg (fun h => h20 h.symm)]
  exact .refl _

/-- A blob transaction without blobs: what the kernel has on the stack while it reads one, the address of the fields and that of the loop, stays there. -/
theorem C132_no_blobs {m : Nat} {l : List Nat} (hP : P.Blobs) (hQ : P.Has processTxnCode) (hm0 : m < 2 ^ 256) (ha : rlpStart ≤ a)
    (hm : Rest w a (rlpNum m ++ (rlpList [] ++ l))) :
    ∃ w', Reaches P (.goto (P.addr "type_3@18.after") (a :: S) w) (.goto (P.addr "txn_loop_after") (0 :: w.mem 0x900000006 :: S) w') := by
  have ha' := ha
  simp only [rlpStart] at ha'
  refine ⟨w.set 0x90000000b m, ?_⟩
  have e6 : (w.set 0x90000000b m).mem 0x900000006 = w.mem 0x900000006 := set_ne (by omega)
  rw [← e6]
  enter hP.has in type3Code
  rw [b_type_3_18_after]
  kexec []
  refine (hm.scalar hP.rlps hm0).trans ?_
  enter hP.has in type3Code
  rw [b_type_3_20_after]
  kexec [m_mstore_txn_field]
  rw [exec_mstore_at (by decide)]
  kexec []
  have h1 := (hm.right).set (b := 0x90000000b) (x := m) (by omega)
  rw [rlpList, List.append_assoc] at h1
  refine (run_decode_list hP.rlps (by have hl := h1.1.lt; simp only [List.length_append] at hl; omega) h1.left.span h1.left.2).trans ?_
  refine .trans ?_ (run_refuse_2 (x := 0) (y := a + (rlpNum m).length + (rlpHeader 0xc0 0).length) (z := P.addr "type_3@21.after") hQ)
  enter hP.has in type3Code
  rw [b_type_3_22_after]
  kexec [m_assert_nonzero1]
  rw [if_neg (by simp)]
  exact .refl _

/-! ### Example -/

def misCode : List (String × List I) :=
  type2Code ++ rlpCode ++ copyCode ++ processTxnCode ++ type3Code ++ accessListCode ++ transferCode ++ touchedCode ++ stateReadCode ++ linkedListCode ++
    [("txn_loop_after", [PUSH 2, EXIT_KERNEL])]

/-- A kernel that stops when it is back in the loop. -/
def misProg : Prog := tableProg misCode List.sum

theorem misProg_has : misProg.Has misCode := tableProg_has _ _ (by decide +kernel) (by decide +kernel) (by decide +kernel)

theorem misProg_rlps : misProg.Rlps := by
  refine ⟨tableProg_copies _ _ (by decide +kernel) (by decide +kernel) (by decide +kernel) ?_, misProg_has.mono ?_, misProg_has.mono ?_⟩
  · intro p hp; simp [misCode, hp]
  · intro p hp; simp [misCode, hp]
  · intro p hp
    simp only [List.mem_singleton] at hp; rw [hp]
    have : ("panic", b_panic) ∈ linkedListCode := by simp [linkedListCode]
    simp [misCode, this]

theorem misProg_type2 : misProg.Type2s := ⟨misProg_rlps, misProg_has.mono fun p hp => by simp [misCode, hp]⟩

theorem misProg_txn : misProg.Has processTxnCode := misProg_has.mono fun p hp => by simp [misCode, hp]

theorem misProg_blobs : misProg.Blobs where
  rlps := misProg_rlps
  has := misProg_has.mono (by simp +contextual [misCode])
  lists := misProg_has.mono (by simp +contextual [misCode])
  pays := ⟨⟨misProg_rlps.1, misProg_has.mono (by simp +contextual [misCode]), misProg_has.mono (by simp +contextual [misCode])⟩,
    misProg_has.mono (by simp +contextual [misCode]), misProg_has.mono (by simp +contextual [misCode])⟩

/-- A transaction to a recipient of 19 bytes. -/
def badTo : TypedTx := { txTyped with to := List.replicate 19 0x35 }

theorem badTo_bad : BadTo (zeroWorld.put rlpStart badTo.wire) badTo where
  type := rfl
  chain := by decide
  nonce := by decide
  tip := by decide
  fee := by decide
  gas := by decide
  notEmpty := by decide
  noAddress := by decide
  short := by decide +kernel
  bytes := (written_put (w := zeroWorld) (w' := zeroWorld) rfl rfl).here

theorem misProg_stop {s : List Nat} : Reaches misProg (.goto (misProg.addr "txn_loop_after") s w) (.exit 2 s w) := by
  have hk : misProg.Has [("txn_loop_after", [PUSH 2, EXIT_KERNEL])] := misProg_has.mono (by simp [misCode])
  obtain ⟨e, hlt⟩ := hk _ (List.mem_singleton_self _)
  simp only at e hlt
  refine .step (Nat.lt_trans hlt (by decide)) ?_
  rw [e]
  kexec []
  exact .refl _

theorem C132_violated : ¬ C132_statement := by
  intro h
  obtain ⟨w1, h1⟩ := h misProg _ _ [] misProg_type2 misProg_txn badTo_bad
  obtain ⟨w2, b, h2, -⟩ := C132_partial (ret := misProg.addr "txn_loop_after") (S := []) misProg_type2 misProg_txn badTo_bad
  have := (h1.trans misProg_stop).unique (h2.trans misProg_stop) (by simp) (by simp)
  simp at this

/-- A blob transaction without blobs, with a fee of 9 for blob gas. -/
example : ∃ w', Reaches misProg (.goto (misProg.addr "type_3@18.after") [rlpStart, 0xb00000003, misProg.addr "txn_loop_after"] (zeroWorld.put rlpStart [9, 0xc0]))
    (.goto (misProg.addr "txn_loop_after") [0, 0, 0xb00000003, misProg.addr "txn_loop_after"] w') := by
  have e : rlpNum 9 ++ (rlpList [] ++ []) = [9, 0xc0] := by decide +kernel
  obtain ⟨w', h⟩ := C132_no_blobs (w := zeroWorld.put rlpStart [9, 0xc0]) (a := rlpStart) (l := []) (m := 9) (S := [0xb00000003, misProg.addr "txn_loop_after"])
    misProg_blobs misProg_txn (by decide) (Nat.le_refl _)
    ⟨by rw [e]; exact ⟨by decide, by decide, by decide⟩, by rw [e]; exact (written_put (w := zeroWorld) (w' := zeroWorld) rfl rfl).here⟩
  exact ⟨w', h⟩

end Verif.Kasm
