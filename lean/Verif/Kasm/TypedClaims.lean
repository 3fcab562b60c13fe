import Verif.Kasm.Type1Run
import Verif.Kasm.Type2Run

/-!
C128: of a transaction of type 1 or 2 the kernel takes what its sender signed.
-/

namespace Verif.Kasm

variable {P : Prog} {S : List Nat} {w w' w1 w2 : World} {ret a : Nat} {l : List Nat} {t : TypedTx}

/-- A kernel with the code for both. -/
structure Prog.Typeds (P : Prog) : Prop where
  t1 : P.Type1s
  t2 : P.Type2s
  lists : P.Has accessListCode

/-- Where the kernel begins with a transaction of this type. -/
def TypedTx.entry (t : TypedTx) : String := if t.type = 1 then "process_type_1_txn" else "process_type_2_txn"

/-- Where it goes on after the access list. -/
def TypedTx.after (t : TypedTx) : String := if t.type = 1 then "type_1@16.after" else "type_2@18.after"

/-- Where it goes on with the sender. -/
def TypedTx.origin (t : TypedTx) : String := if t.type = 1 then "store_origin@type_1" else "store_origin@type_2"

/-- Up to the access list: the fields are stored, nothing else has changed, and the input is as it was. -/
theorem C128_before (hP : P.Typeds) (ht : t.Ok) (hc : w.ctx = 0) (hm : HasBytes w rlpStart t.wire) : ∃ w1,
    Reaches P (.goto (P.addr t.entry) (rlpStart :: ret :: S) w)
      (.goto (P.addr "decode_and_store_access_list") (t.listAt :: P.addr t.after :: t.bodyAt :: ret :: S) w1) ∧
    t.Fields w w1 ∧ HasBytes w1 rlpStart t.wire ∧ w1.inp = w.inp ∧
    ∀ b, b ≠ 0x500000024 → (b < 0x900000000 ∨ 0x90000000e < b) → (b < 0xa00000000 ∨ 0xa00000000 + t.data.length ≤ b) → w1.mem b = w.mem b := by
  have hshort := ht.short
  have hr : Rest w rlpStart t.wire := ⟨⟨by decide, by decide, by simp only [rlpStart]; omega⟩, hm⟩
  refine ⟨t.w3 w, ?_, fields_t3, (rest_t3 hr (Nat.le_refl _) (typed_data_short ht.short)).2, ?_, fun b => else_t3⟩
  · rcases ht.type with ⟨h, -⟩ | h
    · simp only [TypedTx.entry, TypedTx.after, h, if_true]
      exact run_type1_read hP.t1 ht h hc hm
    · simp only [TypedTx.entry, TypedTx.after, h]
      exact run_type2_read hP.t2 ht h hc hm
  · simp only [TypedTx.w3, TypedTx.w2]
    split <;> rfl

/-- From the end of the access list, if it has been read without change to the fields and the input: the kernel goes to recover the sender from
the signature over exactly `t.signed`, and the fields it will use are those of `t`. -/
theorem C128_after (hP : P.Typeds) (ht : t.Ok) (hs : t.s < halfOrder) (hf : t.Fields w w1) (hm : HasBytes w1 rlpStart t.wire)
    (hk : Kept w1 w2) (hi : w2.inp 0 < 2 ^ 256) :
    Returns P (55 < t.body.length → w2.inp 0 = bits t.body.length)
      (.goto (P.addr t.after) ((t.listAt + (rlpList t.access).length) :: t.bodyAt :: ret :: S) w2) (P.addr "ecrecover") fun s w' =>
      s = P.hash t.signed :: (27 + t.parity) :: t.r :: t.s :: P.addr t.origin :: ret :: S ∧ t.Fields w w' ∧ t.Signature w2 w' := by
  have hshort := ht.short
  have hr : Rest w1 rlpStart t.wire := ⟨⟨by decide, by decide, by simp only [rlpStart]; omega⟩, hm⟩
  have hm2 := (hk.rest (Nat.le_refl _) (by simp only [rlpStart]; omega) hr).2
  have key : ∀ s w', s = P.hash t.signed :: (27 + t.parity) :: t.r :: t.s :: P.addr t.origin :: ret :: S ∧ t.Signature w2 w' →
      s = P.hash t.signed :: (27 + t.parity) :: t.r :: t.s :: P.addr t.origin :: ret :: S ∧ t.Fields w w' ∧ t.Signature w2 w' := by
    rintro s w' ⟨h1, h2⟩
    refine ⟨h1, ?_, h2⟩
    have hdl := typed_data_short hshort
    have e : ∀ b, 0x900000000 ≤ b → b < rlpStart → (b < 0x90000000c ∨ 0x90000000e < b) → w'.mem b = w1.mem b := fun b g1 g2 g3 => by
      rw [h2.else_ b g3 (.inl g2), hk.mem b g1 (by simp only [rlpStart] at g2; omega)]
    have ec : w'.mem 0x500000024 = w1.mem 0x500000024 := by rw [h2.else_ _ (by omega) (.inl (by decide)), hk.create]
    simp only [rlpStart] at e
    constructor
    case data => intro i hi'; rw [← hf.data i hi']; exact e _ (by omega) (by omega) (by omega)
    case to => intro h; rw [e _ (by decide) (by decide) (by decide), ec]; exact hf.to h
    case create => intro h; rw [e _ (by decide) (by decide) (by decide), ec]; exact hf.create h
    case ctx => rw [h2.ctx, hk.ctx, hf.ctx]
    case type => rw [e _ (by decide) (by decide) (by decide)]; exact hf.type
    case chainGiven => rw [e _ (by decide) (by decide) (by decide)]; exact hf.chainGiven
    case chain => rw [e _ (by decide) (by decide) (by decide)]; exact hf.chain
    case nonce => rw [e _ (by decide) (by decide) (by decide)]; exact hf.nonce
    case tip => rw [e _ (by decide) (by decide) (by decide)]; exact hf.tip
    case fee => rw [e _ (by decide) (by decide) (by decide)]; exact hf.fee
    case gas => rw [e _ (by decide) (by decide) (by decide)]; exact hf.gas
    case value => rw [e _ (by decide) (by decide) (by decide)]; exact hf.value
    case dataLen => rw [e _ (by decide) (by decide) (by decide)]; exact hf.dataLen
  refine Returns.mono ?_ id key
  rcases ht.type with ⟨h, -⟩ | h
  · simp only [TypedTx.after, TypedTx.origin, h, if_true]
    exact run_type1_rest hP.t1 ht h hm2 hi hs
  · simp only [TypedTx.after, TypedTx.origin, h]
    exact run_type2_rest hP.t2 ht h hm2 hi hs

/-- `asm/transactions/common_decoding.asm:164-172` and `:211-213`: nothing is done for an empty access list. -/
theorem run_access_empty (hR : P.Rlps) (hP : P.Has accessListCode) (hm : Rest w a (rlpList [] ++ l)) :
    Reaches P (.goto (P.addr "decode_and_store_access_list") (a :: ret :: S) w) (.goto ret ((a + (rlpList []).length) :: S) w) := by
  have h := hm.left
  have hl := h.1.lt
  have e : rlpList [] = rlpHeader 0xc0 0 := by rw [rlpList, List.append_nil, List.length_nil]
  rw [e] at h hl ⊢
  enter hP in accessListCode
  rw [b_decode_and_store_access_list]
  kexec []
  refine (run_decode_list hR (by decide) h.span h.2).trans ?_
  enter hP in accessListCode
  rw [b_common_decoding_1_after]
  kexec [b_decode_and_store_access_list_loop]
  rw [wadd_small (by omega), Nat.add_zero, if_neg (by simp)]
  enter hP in accessListCode
  rw [b_decode_and_store_access_list_finish]
  kexec []
  exact .refl _

/-- Reading a transaction without an access list (with one: `C128_typed_list_partial`).  Nothing the prover says changes what the kernel takes from it. -/
theorem C128_typed_partial (hP : P.Typeds) (ht : t.Ok) (hs : t.s < halfOrder) (he : t.access = [])
    (hc : w.ctx = 0) (hm : HasBytes w rlpStart t.wire) (hi : w.inp 0 < 2 ^ 256) :
    Returns P (55 < t.body.length → w.inp 0 = bits t.body.length) (.goto (P.addr t.entry) (rlpStart :: ret :: S) w) (P.addr "ecrecover") fun s w' =>
      s = P.hash t.signed :: (27 + t.parity) :: t.r :: t.s :: P.addr t.origin :: ret :: S ∧ t.Fields w w' ∧
        w'.mem 0x90000000c = t.parity ∧ w'.mem 0x90000000d = t.r ∧ w'.mem 0x90000000e = t.s ∧
        ∀ b, b ≠ 0x500000024 → (b < 0x900000000 ∨ 0x90000000e < b) → (b < 0xa00000000 ∨ 0xa00000000 + t.data.length ≤ b) →
          (b < rlpStart ∨ rlpStart + t.wire.length ≤ b) → w'.mem b = w.mem b := by
  obtain ⟨w1, h1, h2, h3, h4, h5⟩ := C128_before (ret := ret) (S := S) hP ht hc hm
  have hshort := ht.short
  have hr : Rest w1 rlpStart t.wire := ⟨⟨by decide, by decide, by simp only [rlpStart]; omega⟩, h3⟩
  have hr0 := typed_rest hr
  have hl : Rest w1 t.listAt (rlpList [] ++ t.sig) := by
    rw [TypedTx.body, he] at hr0
    rw [show t.head ++ (rlpStr t.to ++ (rlpNum t.value ++ (rlpStr t.data ++ rlpList []))) ++ t.sig
      = (t.head ++ (rlpStr t.to ++ (rlpNum t.value ++ rlpStr t.data))) ++ (rlpList [] ++ t.sig) by simp only [List.append_assoc]] at hr0
    exact hr0.right
  refine .of h1 (.of (run_access_empty hP.t1.rlps hP.lists hl) ?_)
  have h := C128_after (ret := ret) (S := S) hP ht hs h2 h3 (w2 := w1) ⟨rfl, rfl, fun _ _ _ => rfl⟩ (by rw [h4]; exact hi)
  rw [h4, he] at h
  refine h.mono id ?_
  rintro s w' ⟨g1, g2, g3⟩
  refine ⟨g1, g2, g3.parity, g3.r, g3.s, fun b k1 k2 k3 k4 => ?_⟩
  rw [g3.else_ b (by omega) k4, h5 b k1 k2 k3]

/-- A signature with `s` above half the order is refused (EIP-2). -/
theorem C128_high_s (hP : P.Typeds) (ht : t.Ok) (hs : halfOrder ≤ t.s) (hm : HasBytes w1 rlpStart t.wire) (hk : Kept w1 w2) :
    Reaches P (.goto (P.addr t.after) ((t.listAt + (rlpList t.access).length) :: t.bodyAt :: ret :: S) w2) .panic := by
  have hshort := ht.short
  have hr : Rest w1 rlpStart t.wire := ⟨⟨by decide, by decide, by simp only [rlpStart]; omega⟩, hm⟩
  have hm2 := (hk.rest (Nat.le_refl _) (by simp only [rlpStart]; omega) hr).2
  rcases ht.type with ⟨h, -⟩ | h
  · simp only [TypedTx.after, h, if_true]
    exact run_type1_high hP.t1 ht hm2 hs
  · simp only [TypedTx.after, h]
    exact run_type2_high hP.t2 ht hm2 hs

/-- A recipient that is no address, and not empty, is refused. -/
theorem C128_bad_to (hP : P.Typeds) (htype : t.type = 1 ∧ t.fee = t.tip ∨ t.type = 2) (hch : t.chain < 2 ^ 256) (hn : t.nonce < 2 ^ 256)
    (hp : t.tip < 2 ^ 256) (hf : t.fee < 2 ^ 256) (hg : t.gas < 2 ^ 256) (h0 : t.to.length ≠ 0) (h20 : t.to.length ≠ 20)
    (hshort : t.wire.length + 1 < 2 ^ 32) (hm : HasBytes w rlpStart t.wire) :
    ∃ s w', Reaches P (.goto (P.addr t.entry) (rlpStart :: ret :: S) w) (.goto (P.addr "invalid_txn") s w') := by
  rcases htype with ⟨h, h'⟩ | h
  · simp only [TypedTx.entry, h, if_true]
    exact run_type1_refused hP.t1 h hch hn hp h' hg h0 h20 hshort hm
  · simp only [TypedTx.entry, h]
    exact run_type2_refused hP.t2 h hch hn hp hf hg h0 h20 hshort hm

/-- The sender that was recovered is the one for whom the transaction is executed. -/
theorem C128_origin (hP : P.Typeds) {x : Nat} (hx : x < 2 ^ 256 - 1) :
    Reaches P (.goto (P.addr t.origin) (x :: ret :: S) w) (.goto (P.addr "process_normalized_txn") (ret :: S) (w.set 0x90000000f x)) := by
  rw [TypedTx.origin]
  split
  · exact run_type1_origin hP.t1 hx
  · exact run_type2_origin hP.t2 hx

/-- No sender: no proof. -/
theorem C128_no_origin (hP : P.Typeds) : Reaches P (.goto (P.addr t.origin) ((2 ^ 256 - 1) :: ret :: S) w) .panic := by
  rw [TypedTx.origin]
  split
  · exact run_type1_no_origin hP.t1
  · exact run_type2_no_origin hP.t2

/-! ### What is signed determines the transaction -/

theorem typed_prefix {t t' : TypedTx} {x y : List Nat} (ht : t.Ok) (ht' : t'.Ok) (hk : t.type = t'.type) (h : t.body ++ x = t'.body ++ y) :
    (t.chain = t'.chain ∧ t.nonce = t'.nonce ∧ t.tip = t'.tip ∧ t.fee = t'.fee ∧ t.gas = t'.gas ∧ t.to = t'.to ∧ t.value = t'.value ∧
      t.data = t'.data ∧ t.access = t'.access) ∧ x = y := by
  simp only [TypedTx.body, TypedTx.head, List.append_assoc] at h
  obtain ⟨h1, h⟩ := rlpNum_prefix h
  obtain ⟨h2, h⟩ := rlpNum_prefix h
  have hfees : ∀ {u v : List Nat}, t.fees ++ u = t'.fees ++ v → (t.tip = t'.tip ∧ t.fee = t'.fee) ∧ u = v := by
    intro u v hh
    have hb := ht.type
    have hb' := ht'.type
    simp only [TypedTx.fees, ← hk] at hh
    by_cases e : t.type = 1
    · rw [if_pos e, if_pos e] at hh
      obtain ⟨h3, hh⟩ := rlpNum_prefix hh
      exact ⟨⟨h3, by omega⟩, hh⟩
    · rw [if_neg e, if_neg e, List.append_assoc, List.append_assoc] at hh
      obtain ⟨h3, hh⟩ := rlpNum_prefix hh
      obtain ⟨h4, hh⟩ := rlpNum_prefix hh
      exact ⟨⟨h3, h4⟩, hh⟩
  obtain ⟨⟨h3, h4⟩, h⟩ := hfees h
  obtain ⟨h5, h⟩ := rlpNum_prefix h
  obtain ⟨h6, h⟩ := rlpStr_prefix h
  obtain ⟨h7, h⟩ := rlpNum_prefix h
  obtain ⟨h8, h⟩ := rlpStr_prefix h
  simp only [rlpList, List.append_assoc] at h
  obtain ⟨h9, h⟩ := rlpHeader_prefix h
  obtain ⟨h10, h⟩ := List.append_inj h h9
  exact ⟨⟨h1, h2, h3, h4, h5, h6, h7, h8, h10⟩, h⟩

/-- Two transactions with the same signed bytes agree in all but the signature. -/
theorem C128_binding {t t' : TypedTx} (ht : t.Ok) (ht' : t'.Ok) (h : t.signed = t'.signed) :
    { t with parity := t'.parity, r := t'.r, s := t'.s } = t' := by
  obtain ⟨hk, h⟩ := List.cons.inj h
  have h := (rlpHeader_prefix h).2
  obtain ⟨⟨h1, h2, h3, h4, h5, h6, h7, h8, h9⟩, -⟩ := typed_prefix (x := []) (y := []) ht ht' hk (by rw [h])
  obtain ⟨k, c, n, ti, f, g, to, v, d, acc, p, r, s⟩ := t
  obtain ⟨k', c', n', ti', f', g', to', v', d', acc', p', r', s'⟩ := t'
  simp only at hk h1 h2 h3 h4 h5 h6 h7 h8 h9
  subst hk h1 h2 h3 h4 h5 h6 h7 h8 h9
  rfl

/-- No signature is good for a transaction of this kind and one of the first. -/
theorem C128_kinds {t : TypedTx} {u : LegacyTx} (ht : t.Ok) : t.signed ≠ u.signed ∧ t.wire ≠ u.wire := by
  have hb := ht.type
  have key : ∀ {x : List Nat} (q : List Nat), t.type :: x ≠ rlpList q := by
    intro x q h
    obtain ⟨b, y, e, hb'⟩ := rlpHeader_head (b := 0xc0) (n := q.length)
    rw [rlpList, e, List.cons_append] at h
    have := (List.cons.inj h).1
    omega
  refine ⟨?_, ?_⟩
  · rw [signed_inner]; exact key _
  · exact key _

/-- The bytes in the block determine the transaction. -/
theorem C128_wire {t t' : TypedTx} (ht : t.Ok) (ht' : t'.Ok) (h : t.wire = t'.wire) : t = t' := by
  obtain ⟨hk, h⟩ := List.cons.inj h
  have h := (rlpHeader_prefix h).2
  obtain ⟨⟨h1, h2, h3, h4, h5, h6, h7, h8, h9⟩, g⟩ := typed_prefix ht ht' hk h
  simp only [TypedTx.sig] at g
  obtain ⟨k1, g⟩ := rlpNum_prefix g
  obtain ⟨k2, g⟩ := rlpNum_prefix g
  obtain ⟨k3, -⟩ := rlpNum_prefix (m := t.s) (n := t'.s) (x := []) (y := []) (by rw [List.append_nil, List.append_nil]; exact g)
  obtain ⟨k, c, n, ti, f, g, to, v, d, acc, p, r, s⟩ := t
  obtain ⟨k', c', n', ti', f', g', to', v', d', acc', p', r', s'⟩ := t'
  simp only at hk h1 h2 h3 h4 h5 h6 h7 h8 h9 k1 k2 k3
  subst hk h1 h2 h3 h4 h5 h6 h7 h8 h9 k1 k2 k3
  rfl

/-! ### An example -/

def typedProg : Prog := tableProg (type1Code ++ type2Code ++ accessListCode ++ rlpCode ++ copyCode ++ [("panic", b_panic)]) List.sum

theorem typedProg_has : typedProg.Typeds := by
  have h : typedProg.Has (type1Code ++ type2Code ++ accessListCode ++ rlpCode ++ copyCode ++ [("panic", b_panic)]) :=
    tableProg_has _ _ (by decide +kernel) (by decide +kernel) (by decide +kernel)
  have hr : typedProg.Rlps := by
    refine ⟨tableProg_copies _ _ (by decide +kernel) (by decide +kernel) (by decide +kernel) ?_, h.mono ?_, h.mono ?_⟩
    · intro p hp; simp [hp]
    · intro p hp; simp [hp]
    · intro p hp; simp only [List.mem_singleton] at hp; simp [hp]
  exact ⟨⟨hr, h.mono fun p hp => by simp [hp]⟩, ⟨hr, h.mono fun p hp => by simp [hp]⟩, h.mono fun p hp => by simp [hp]⟩

def txTyped : TypedTx where
  type := 2
  chain := 1
  nonce := 9
  tip := 1000000000
  fee := 20000000000
  gas := 21000
  to := List.replicate 20 0x35
  value := 1000000000000000000
  data := [1, 2, 3]
  access := []
  parity := 1
  r := 18515461264373351373200002665853028612451056578545711640558177905181847433674
  s := 46948507304638947509940763649030358759909902576025900602547168820602576006531

theorem txTyped_ok : txTyped.Ok where
  type := .inr rfl
  chain := by decide
  nonce := by decide
  tip := by decide
  fee := by decide
  gas := by decide
  to := .inr rfl
  toBytes := by intro b hb; have := List.eq_of_mem_replicate hb; omega
  value := by decide
  data := by intro b hb; simp only [txTyped, List.mem_cons, List.not_mem_nil, or_false] at hb; omega
  access := nofun
  parity := by decide
  r := by decide
  s := by decide
  short := by decide +kernel

/-- What is signed of it: 2, and the list of the fields. -/
example : txTyped.signed = [0x02, 0xf3, 0x01, 0x09, 0x84, 0x3b, 0x9a, 0xca, 0x00, 0x85, 0x04, 0xa8, 0x17, 0xc8, 0x00, 0x82, 0x52, 0x08, 0x94, 0x35, 0x35,
    0x35, 0x35, 0x35, 0x35, 0x35, 0x35, 0x35, 0x35, 0x35, 0x35, 0x35, 0x35, 0x35, 0x35, 0x35, 0x35, 0x35, 0x35, 0x88, 0x0d, 0xe0, 0xb6, 0xb3, 0xa7, 0x64,
    0x00, 0x00, 0x83, 0x01, 0x02, 0x03, 0xc0] := by
  decide +kernel

/-- The theorem applies to it: the kernel reads it and looks for its sender. -/
example : ∃ w', Reaches typedProg (.goto (typedProg.addr "process_type_2_txn") [rlpStart, 77] (zeroWorld.put rlpStart txTyped.wire))
      (.goto (typedProg.addr "ecrecover") [txTyped.signed.sum, 28, txTyped.r, txTyped.s, typedProg.addr "store_origin@type_2", 77] w') ∧
      w'.mem 0x900000004 = 1000000000 ∧ w'.mem 0x900000005 = 20000000000 ∧ w'.mem 0xa00000002 = 3 := by
  obtain ⟨s, w', h1, rfl, h2, -⟩ := (C128_typed_partial (t := txTyped) (w := zeroWorld.put rlpStart txTyped.wire) (ret := 77) (S := []) typedProg_has txTyped_ok
    (by decide) rfl rfl (written_put (w := zeroWorld) (w' := zeroWorld) rfl rfl).here (by show 0 < _; decide)).sure
    (fun h => absurd h (by decide +kernel))
  exact ⟨w', h1, h2.tip, h2.fee, h2.data 2 (by decide)⟩

example : { txTyped with type := 1, fee := 1000000000 }.Ok := { txTyped_ok with type := .inl ⟨rfl, rfl⟩, fee := by decide, short := by decide +kernel }

end Verif.Kasm
