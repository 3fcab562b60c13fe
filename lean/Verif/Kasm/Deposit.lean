import Verif.Kasm.RevertClaims
import Verif.Kasm.Code.Create

/-!
The end of a creation: what the constructor returns becomes the code of the new contract, or the creation is undone (`asm/core/create.asm:142-242`).
-/

namespace Verif.Kasm

variable {P : Prog} {S : List Nat} {w w' : World} {ret n k a v K g q nc : Nat} {ps ts : List Nat} {f : Nat → Option Nat} {js : List (List Nat)} {A : Acct}

/-- `set_codehash` (`asm/core/create.asm:259-273`). -/
theorem run_set_codehash (hP : P.Pays) (hC : P.Has createCode) (h : StateIs w n ps f js ts) (hr : StateRoom w js ts (k + 2)) (ha : P.addrKey a < u256Max) (ha' : a < 2 ^ 256)
    (hi : AccHonest w 0 ps (P.addrKey a)) (hA : w.accts f (P.addrKey a) = some A) (hv : v < 2 ^ 256) :
    ∃ w', Shift 1 BalCell w w' ∧ StateIs w' n ps f (js ++ touchLog ts a ++ [[7, a, A.codeHash]]) (touchList ts a) ∧
      StateRoom w' (js ++ touchLog ts a ++ [[7, a, A.codeHash]]) (touchList ts a) k ∧ w'.accts f = updAcct (w.accts f) (P.addrKey a) { A with codeHash := v } ∧
      Reaches P (.goto (P.addr "set_codehash") (a :: v :: ret :: S) w) (.goto ret S w') := by
  obtain ⟨s1, f1, g1, r1⟩ := touch_state (k := k + 1) (a := a) h hr ha'
  have q1 := hr.data; have q2 := hr.journal; have q3 := hr.touched
  have htouch := run_insert_touched (a := a) (ret := P.addr "create@31.after") (S := a :: v :: ret :: S) hP.touched h.words h.journal h.touched (by omega) (by omega) (by omega)
  have hi1 := f1.honest h.accounts hi
  generalize (if a ∈ ts then w else w.touch a) = w1 at *
  cases hf : f (P.addrKey a) with
  | none => simp [World.accts, hf] at hA
  | some p =>
  have hp := h.ptr _ _ hf
  have hread := run_read_state (ret := P.addr "create@32.after") (S := a :: v :: ret :: S) hP.reads s1.words s1.accounts ha hi1
  rw [hf, Option.getD_some] at hread
  have t1 := looked_state (a := a) s1
  have t2 : Shift 1 BalCell w1 (w1.looked a) := looked_shift
  have t3 : (w1.looked a).accts f = w1.accts f := looked_accts
  have t4 : (w1.looked a).mem jdatLen = w1.mem jdatLen := looked_mem (by simp only [jdatLen]; omega)
  generalize w1.looked a = w2 at *
  have hA2 : w2.accts f (P.addrKey a) = some (w2.record p) := by simp only [World.accts, hf, Option.map_some]
  rw [t3, g1, hA] at hA2
  cases hA2
  have hc : w2.mem (0xc00000000 + (p + 3)) = (w2.record p).codeHash := rfl
  have u1 := r1.data; have u2 := r1.journal; have u3 := r1.touched
  obtain ⟨p1, p2, p3, p4, p5⟩ := push_state (k := k) (l := [7, a, (w2.record p).codeHash]) t1 ⟨by rw [t4]; omega, u2, u3⟩ (by simp) (by
    intro x hx
    simp only [List.mem_cons, List.not_mem_nil, or_false] at hx
    rcases hx with rfl | rfl | rfl
    · omega
    · exact ha'
    · exact t1.words _)
  obtain ⟨w3, hw3⟩ : ∃ w3, w3 = pushEntry w2 [7, a, (w2.record p).codeHash] := ⟨_, rfl⟩
  have hrec : w3.record p = w2.record p := by
    have := congrFun p3 (P.addrKey a)
    simp only [World.accts, hf, Option.map_some, Option.some.injEq] at this
    rw [hw3]; exact this
  rw [← hw3] at p1 p2 p3 p4
  obtain ⟨v1, v2, v3, v4⟩ := record_set (d := 3) (v := v) p1 hf (by omega) hv
  refine ⟨_, Shift.trans (j := 0) (Shift.trans (j := 0) (Shift.trans (j := 1) f1 t2) p2) v2, v1, ⟨by rw [v4]; exact p4.data, p4.journal, p4.touched⟩, ?_, ?_⟩
  · rw [v3, record_set_code, p3, t3, g1, hrec]
  · enter hC in createCode
    rw [b_set_codehash]
    kexec []
    refine htouch.trans ?_
    enter hC in createCode
    rw [b_create_31_after]
    kexec []
    refine hread.trans ?_
    enter hC in createCode
    rw [b_create_32_after]
    kexec [m_add_const]
    rw [wadd_small (by omega), Nat.add_comm 3 p, exec_mload_trie (by omega), hc]
    kexec [m_journal_add_code_change]
    rw [exec_journal_2 (by rw [t4]; omega) (by rw [t1.journal.len]; omega), ← hw3]
    kexec []
    rw [exec_mstore_trie (by omega), ← Nat.add_assoc]
    kexec []
    exact .refl _

/-- The size of the return data of the current context, the number of its checkpoints and its return data. -/
def World.retSize (w : World) : Nat := w.mem (w.ctx * 2 ^ 64 + 0x600000003)
def World.checks (w : World) : Nat := w.mem (w.ctx * 2 ^ 64 + 0x60000000d)
def World.retData (w : World) : List Nat := bytesAt w (w.ctx * 2 ^ 64 + 0x400000000) w.retSize

/-- The first byte where the return data is, also if there is none. -/
def World.retFirst (w : World) : Nat := w.mem (w.ctx * 2 ^ 64 + 0x400000000)

/-- `KECCAK_GENERAL` over bytes of the current context. -/
theorem exec_hash_ctx {cd : List I} {c z : Nat} (hc : c < 2 ^ 32) (hz : z < 2 ^ 32) :
    exec P (KECCAK_GENERAL :: cd) ((c * 2 ^ 64 + 0x400000000) :: z :: S) w = exec P cd (P.hash (bytesAt w (c * 2 ^ 64 + 0x400000000) z) :: S) w := by
  have h1 : SegOk (c * 2 ^ 64 + 0x400000000) := by simp only [SegOk]; omega
  have h2 : key (c * 2 ^ 64 + 0x400000000) = c * 2 ^ 64 + 0x400000000 := by simp only [key]; omega
  simp only [exec]
  rw [if_pos ⟨h1, by omega⟩, h2]

/-- Code that begins with 0xEF is not accepted. -/
theorem run_deposit_ef (hC : P.Has createCode) (hctx : w.ctx < 2 ^ 32) (h0 : w.retFirst = 0xEF) :
    Reaches P (.goto (P.addr "after_constructor") (1 :: g :: nc :: a :: K :: S) w) (.goto (P.addr "revert_checkpoint") (P.addr "create@28.after" :: g :: 1 :: a :: K :: S) w) := by
  have h1 : w.mem (w.ctx * 2 ^ 64 + 0x400000000) = 0xEF := h0
  enter hC in createCode
  rw [b_after_constructor]
  generalize (m_returndatasize ++ _ : List I) = t
  kexec [m_build_address_no_offset]
  rw [if_pos (by omega)]
  rw [wadd_small (by omega), exec_mload_ctx hctx (by omega), h1]
  kexec [m_eq_const]
  enter hC in createCode
  rw [b_create_first_byte_ef]
  kexec []
  exact .refl _

/-- Nor is code of more than 24576 bytes. -/
theorem run_deposit_large (hC : P.Has createCode) (hctx : w.ctx < 2 ^ 32) (h0 : w.retFirst ≠ 0xEF) (h1 : 24576 < w.retSize) :
    Reaches P (.goto (P.addr "after_constructor") (1 :: g :: nc :: a :: K :: S) w)
      (.goto (P.addr "revert_checkpoint") (P.addr "create@29.after" :: w.retSize :: g :: 1 :: a :: K :: S) w) := by
  have h2 : w.mem (w.ctx * 2 ^ 64 + 0x400000000) ≠ 0xEF := h0
  have h3 : w.mem (w.ctx * 2 ^ 64 + 0x600000003) = w.retSize := rfl
  generalize w.retSize = z at *
  enter hC in createCode
  rw [b_after_constructor]
  generalize (m_mul_const _ ++ _ : List I) = t
  kexec [m_build_address_no_offset]
  rw [if_pos (by omega)]
  rw [wadd_small (by omega), exec_mload_ctx hctx (by omega)]
  kexec [m_eq_const]
  rw [if_pos (by omega), m_returndatasize, List.append_nil, exec_load_ctx hctx (by omega), h3]
  kexec [m_gt_const]
  rw [if_neg (by omega)]
  enter hC in createCode
  rw [b_create_code_too_large]
  kexec []
  exact .refl _

/-- Nor is code that cannot be paid for. -/
theorem run_deposit_oog (hC : P.Has createCode) (hctx : w.ctx < 2 ^ 32) (h0 : w.retFirst ≠ 0xEF) (h1 : w.retSize ≤ 24576) (hg : g < 200 * w.retSize) :
    Reaches P (.goto (P.addr "after_constructor") (1 :: g :: nc :: a :: K :: S) w)
      (.goto (P.addr "revert_checkpoint") (P.addr "create@30.after" :: (200 * w.retSize) :: g :: 1 :: a :: K :: S) w) := by
  have h2 : w.mem (w.ctx * 2 ^ 64 + 0x400000000) ≠ 0xEF := h0
  have h3 : w.mem (w.ctx * 2 ^ 64 + 0x600000003) = w.retSize := rfl
  generalize w.retSize = z at *
  enter hC in createCode
  rw [b_after_constructor]
  generalize (m_pop_checkpoint ++ _ : List I) = t
  kexec [m_build_address_no_offset]
  rw [if_pos (by omega)]
  rw [wadd_small (by omega), exec_mload_ctx hctx (by omega)]
  kexec [m_eq_const]
  rw [if_pos (by omega), m_returndatasize, List.append_nil, exec_load_ctx hctx (by omega), h3]
  kexec [m_gt_const]
  rw [if_pos (by omega)]
  kexec [m_mul_const]
  rw [wmul_small (by omega)]
  rw [if_neg (by omega)]
  enter hC in createCode
  rw [b_create_oog]
  kexec []
  exact .refl _

/-- Up to the hash of the code. -/
theorem run_deposit_pay (hC : P.Has createCode) (hctx : w.ctx < 2 ^ 32) (hw : Words w) (h0 : w.retFirst ≠ 0xEF) (h1 : w.retSize ≤ 24576) (hg : 200 * w.retSize ≤ g) (hg' : g < 2 ^ 256)
    (hq : w.checks = q + 1) :
    Reaches P (.goto (P.addr "after_constructor") (1 :: g :: nc :: a :: K :: S) w)
      (.goto (P.addr "set_codehash") (a :: P.hash w.retData :: P.addr "create@24.after" :: (g - 200 * w.retSize) :: 1 :: a :: K :: S) (w.set (w.ctx * 2 ^ 64 + 0x60000000d) q)) := by
  have h2 : w.mem (w.ctx * 2 ^ 64 + 0x400000000) ≠ 0xEF := h0
  have h3 : w.mem (w.ctx * 2 ^ 64 + 0x600000003) = w.retSize := rfl
  have h4 : w.mem (w.ctx * 2 ^ 64 + 0x60000000d) = q + 1 := hq
  have h6 : q + 1 < 2 ^ 256 := h4 ▸ hw _
  have h5 : bytesAt (w.set (w.ctx * 2 ^ 64 + 0x60000000d) q) (w.ctx * 2 ^ 64 + 0x400000000) w.retSize = w.retData := by
    simp only [World.retData, bytesAt]
    refine List.map_congr_left fun i hi => ?_
    have hi := List.mem_range.1 hi
    rw [set_ne (by omega)]
  generalize w.retSize = z at *
  generalize w.retData = bs at *
  enter hC in createCode
  rw [b_after_constructor]
  kexec [m_build_address_no_offset]
  rw [if_pos (by omega)]
  rw [wadd_small (by omega), exec_mload_ctx hctx (by omega)]
  kexec [m_eq_const]
  rw [if_pos (by omega), m_returndatasize, List.append_nil, exec_load_ctx hctx (by omega), h3]
  kexec [m_gt_const]
  rw [if_pos (by omega)]
  kexec [m_mul_const]
  rw [wmul_small (by omega)]
  rw [if_pos (by omega)]
  rw [wsub_small (by omega) (by omega), m_pop_checkpoint]
  kexec []
  rw [exec_load_ctx hctx (by omega), h4]
  kexec [m_mstore_context_metadata1]
  rw [wsub_small (by omega) (by omega), Nat.add_sub_cancel, wadd_small (by omega), exec_mstore_ctx hctx (by omega)]
  rw [exec_load_ctx (w := w.set (w.ctx * 2 ^ 64 + 0x60000000d) q) hctx (by omega)]
  have h7 : (w.set (w.ctx * 2 ^ 64 + 0x60000000d) q).mem ((w.set (w.ctx * 2 ^ 64 + 0x60000000d) q).ctx * 2 ^ 64 + 0x600000003) = z := by
    show (w.set (w.ctx * 2 ^ 64 + 0x60000000d) q).mem (w.ctx * 2 ^ 64 + 0x600000003) = z
    rw [set_ne (by omega), h3]
  rw [h7]
  have h8 : (w.set (w.ctx * 2 ^ 64 + 0x60000000d) q).ctx = w.ctx := rfl
  generalize w.set (w.ctx * 2 ^ 64 + 0x60000000d) q = w1 at *
  kexec []
  rw [h8, wadd_small (by omega), exec_hash_ctx hctx (by omega), h5]
  kexec []
  enter hC in createCode
  rw [b_observe_new_contract]
  kexec []
  enter hC in createCode
  rw [b_create_23_after]
  kexec []
  exact .refl _

/-- A cell of a context's metadata is no part of the state. -/
theorem meta_state {c d : Nat} (h : StateIs w n ps f js ts) (hd : 0x600000000 ≤ d) (hd' : d < 0x700000000) (hv : v < 2 ^ 256) :
    StateIs (w.set (c * 2 ^ 64 + d) v) n ps f js ts ∧ (w.set (c * 2 ^ 64 + d) v).accts f = w.accts f ∧
      (∀ i key, AccHonest w i ps key → AccHonest (w.set (c * 2 ^ 64 + d) v) i ps key) := by
  have e : ∀ b, StateCell b → (w.set (c * 2 ^ 64 + d) v).mem b = w.mem b := fun b hb => by
    refine set_ne ?_
    simp only [StateCell, JourArea, TouchArea, touchLen, touchBase, jourLen, jdatLen, jourBase, jdatBase, accBase, accNext] at hb
    omega
  refine ⟨h.congr (h.words.set hv) e, h.accts_congr fun b h1 h2 => e b (.inr (.inr (.inl ⟨h1, h2⟩))), fun i key hi => ?_⟩
  exact hi.of_same (fun b h1 h2 => e b (.inr (.inr (.inr (.inl ⟨h1, h2⟩))))) rfl h.accounts

/-- What may change when code is deposited besides the state: the number of checkpoints and the size of the return data of the current context. -/
def DepositCell (c b : Nat) : Prop := BalCell b ∨ b = c * 2 ^ 64 + 0x60000000d ∨ b = c * 2 ^ 64 + 0x600000003

/-- What is left of the gas goes back, and the address is the result. -/
theorem run_deposit_end {c y : Nat} (hC : P.Has createCode) (c2 : w.ctx = c) (hctx : c < 2 ^ 32) (e2 : y * 2 ^ 192 ≤ K) (hK' : K < 2 ^ 256) (ha' : a < 2 ^ 256) :
    Reaches P (.goto (P.addr "create@24.after") (y :: 1 :: a :: K :: S) w) (.exit (K - y * 2 ^ 192) (a :: S) (w.set (c * 2 ^ 64 + 0x600000003) 0)) := by
  enter hC in createCode
  rw [b_create_24_after, b_after_constructor_contd]
  kexec [m_mstore_context_metadata2]
  rw [c2, wadd_small (by omega), exec_mstore_ctx hctx (by omega)]
  kexec [m_shl_const]
  have e1 : wshl 192 y = y * 2 ^ 192 := by
    simp only [wshl]; rw [if_neg (by omega)]; omega
  obtain ⟨x, hx⟩ : ∃ x, y * 2 ^ 192 = x := ⟨_, rfl⟩
  rw [hx] at e1 e2
  rw [e1, hx]
  rw [wmul_small (a := a) (b := 1) (by omega), wsub_small (a := K) e2 hK', Nat.mul_one]
  exact .refl _

/-- `set_codehash` when the prover names the start of the list: the hash goes to a cell of no account. -/
theorem run_set_codehash_start (hP : P.Pays) (hC : P.Has createCode) (h : StateIs w n ps f js ts) (hr : StateRoom w js ts (k + 2)) (ha' : a < 2 ^ 256) (hi : 4 * w.inp 0 = accBase)
    (hp : ∀ key p, f key = some p → 3 < p) (hv : v < 2 ^ 256) :
    ∃ w' old, Shift 1 BalCell w w' ∧ StateIs w' n ps f (js ++ touchLog ts a ++ [[7, a, old]]) (touchList ts a) ∧
      StateRoom w' (js ++ touchLog ts a ++ [[7, a, old]]) (touchList ts a) k ∧ w'.accts f = w.accts f ∧
      Reaches P (.goto (P.addr "set_codehash") (a :: v :: ret :: S) w) (.goto ret S w') := by
  obtain ⟨s1, f1, g1, r1⟩ := touch_state (k := k + 1) (a := a) h hr ha'
  have q1 := hr.data; have q2 := hr.journal; have q3 := hr.touched
  have htouch := run_insert_touched (a := a) (ret := P.addr "create@31.after") (S := a :: v :: ret :: S) hP.touched h.words h.journal h.touched (by omega) (by omega) (by omega)
  have hi1 : 4 * (if a ∈ ts then w else w.touch a).inp 0 = accBase := by rw [f1.2.1]; exact hi
  generalize (if a ∈ ts then w else w.touch a) = w1 at *
  have hread := run_read_state_start (a := a) (ret := P.addr "create@32.after") (S := a :: v :: ret :: S) hP.reads s1.accounts hi1
  have t1 := looked_state (a := a) s1
  have t2 : Shift 1 BalCell w1 (w1.looked a) := looked_shift
  have t3 : (w1.looked a).accts f = w1.accts f := looked_accts
  have t4 : (w1.looked a).mem jdatLen = w1.mem jdatLen := looked_mem (by simp only [jdatLen]; omega)
  generalize w1.looked a = w2 at *
  have u1 := r1.data; have u2 := r1.journal; have u3 := r1.touched
  obtain ⟨p1, p2, p3, p4, p5⟩ := push_state (k := k) (l := [7, a, w2.mem 0xc00000003]) t1 ⟨by rw [t4]; omega, u2, u3⟩ (by simp) (by
    intro x hx
    simp only [List.mem_cons, List.not_mem_nil, or_false] at hx
    rcases hx with rfl | rfl | rfl
    · omega
    · exact ha'
    · exact t1.words _)
  obtain ⟨w3, hw3⟩ : ∃ w3, w3 = pushEntry w2 [7, a, w2.mem 0xc00000003] := ⟨_, rfl⟩
  rw [← hw3] at p1 p2 p3 p4
  have v1 : StateIs (w3.set 0xc00000003 v) n ps f (js ++ touchLog ts a ++ [[7, a, w2.mem 0xc00000003]]) (touchList ts a) := by
    have e : ∀ b, b ≠ 0xc00000003 → (w3.set 0xc00000003 v).mem b = w3.mem b := fun b hb => set_ne hb
    exact ⟨p1.words.set hv, p1.accounts.congr (e _ (by decide)) fun b h1 h2 => e b (by simp only [accBase] at h1; omega), p1.ptr, p1.apart,
      by rw [e _ (by decide)]; exact p1.null, p1.journal.congr fun b hb => e b (by simp only [JourArea, jourLen, jdatLen, jourBase, jdatBase] at hb; omega),
      p1.touched.congr fun b hb => e b (by simp only [TouchArea, touchLen, touchBase] at hb; omega), by rw [e _ (by decide)]; exact p1.size⟩
  have v2 : Shift 0 BalCell w3 (w3.set 0xc00000003 v) := ⟨rfl, fun _ => rfl, fun b hb => set_ne fun e => hb (.inr (.inr (.inr ⟨by omega, by omega⟩)))⟩
  have v3 : (w3.set 0xc00000003 v).accts f = w3.accts f := by
    funext c
    simp only [World.accts]
    cases hf : f c with
    | none => rfl
    | some p =>
      have := hp _ _ hf
      have := p1.ptr _ _ hf
      simp only [Option.map_some, World.record]
      rw [set_ne (by omega), set_ne (by omega), set_ne (by omega)]
  refine ⟨w3.set 0xc00000003 v, w2.mem 0xc00000003, Shift.trans (j := 0) (Shift.trans (j := 0) (Shift.trans (j := 1) f1 t2) p2) v2, v1,
    ⟨by rw [set_ne (by simp only [jdatLen]; omega)]; exact p4.data, p4.journal, p4.touched⟩, by rw [v3, p3, t3, g1], ?_⟩
  enter hC in createCode
  rw [b_set_codehash]
  kexec []
  refine htouch.trans ?_
  enter hC in createCode
  rw [b_create_31_after]
  kexec []
  refine hread.trans ?_
  enter hC in createCode
  rw [b_create_32_after]
  kexec [m_add_const]
  rw [wadd_small (by omega), exec_mload_trie (by omega)]
  kexec [m_journal_add_code_change]
  rw [exec_journal_2 (by rw [t4]; omega) (by rw [t1.journal.len]; omega), ← hw3]
  kexec []
  rw [exec_mstore_trie (by omega)]
  kexec []
  exact .refl _

/-- The code is paid for, `set_codehash` does what it does, and the address is the result. -/
theorem run_deposit_with {J : List (List Nat) → Prop} {ts' : List Nat} {X : Nat → Option Acct} (hC : P.Has createCode) (h : StateIs w n ps f js ts) (hctx : w.ctx < 2 ^ 32)
    (ha' : a < 2 ^ 256) (h0 : w.retFirst ≠ 0xEF) (h1 : w.retSize ≤ 24576) (hg : 200 * w.retSize ≤ g) (hK : g * 2 ^ 192 ≤ K) (hK' : K < 2 ^ 256) (hq : w.checks = q + 1)
    (hset : ∀ w1 y, StateIs w1 n ps f js ts → w1.accts f = w.accts f → w1.inp = w.inp → w1.mem jdatLen = w.mem jdatLen → (∀ i key, AccHonest w i ps key → AccHonest w1 i ps key) →
      ∃ w2 js', J js' ∧ Shift 1 BalCell w1 w2 ∧ StateIs w2 n ps f js' ts' ∧ StateRoom w2 js' ts' k ∧ w2.accts f = X ∧
        Reaches P (.goto (P.addr "set_codehash") (a :: P.hash w.retData :: P.addr "create@24.after" :: y :: 1 :: a :: K :: S) w1) (.goto (P.addr "create@24.after") (y :: 1 :: a :: K :: S) w2)) :
    ∃ w' js', J js' ∧ Shift 1 (DepositCell w.ctx) w w' ∧ w'.retSize = 0 ∧ w'.checks = q ∧ StateIs w' n ps f js' ts' ∧ StateRoom w' js' ts' k ∧ w'.accts f = X ∧
      Reaches P (.goto (P.addr "after_constructor") (1 :: g :: nc :: a :: K :: S) w) (.exit (K - (g - 200 * w.retSize) * 2 ^ 192) (a :: S) w') := by
  have hpay := run_deposit_pay (nc := nc) (a := a) (K := K) (S := S) hC hctx h.words h0 h1 hg (by omega) hq
  have hq' : q + 1 < 2 ^ 256 := hq ▸ h.words _
  obtain ⟨m1, m2, m3⟩ := meta_state (c := w.ctx) (d := 0x60000000d) (v := q) h (by omega) (by omega) (by omega)
  have m4 : Shift 0 (DepositCell w.ctx) w (w.set (w.ctx * 2 ^ 64 + 0x60000000d) q) := ⟨rfl, fun _ => rfl, fun b hb => set_ne fun e => hb (.inr (.inl e))⟩
  have m5 : (w.set (w.ctx * 2 ^ 64 + 0x60000000d) q).mem (w.ctx * 2 ^ 64 + 0x60000000d) = q := set_same
  have m6 : (w.set (w.ctx * 2 ^ 64 + 0x60000000d) q).mem jdatLen = w.mem jdatLen := set_ne (by simp only [jdatLen]; omega)
  have m7 : (w.set (w.ctx * 2 ^ 64 + 0x60000000d) q).inp = w.inp := rfl
  generalize w.set (w.ctx * 2 ^ 64 + 0x60000000d) q = w1 at *
  obtain ⟨w2, js', s0, s1, s2, s3, s4, s5⟩ := hset w1 (g - 200 * w.retSize) m1 m2 m7 m6 m3
  have c2 : w2.ctx = w.ctx := s1.1.trans m4.1
  obtain ⟨n1, n2, -⟩ := meta_state (c := w.ctx) (d := 0x600000003) (v := 0) s2 (by omega) (by omega) (by omega)
  have hb : ¬ BalCell (w.ctx * 2 ^ 64 + 0x60000000d) := by
    simp only [BalCell, JourArea, TouchArea, touchLen, touchBase, jourLen, jdatLen, jourBase, jdatBase]; omega
  refine ⟨w2.set (w.ctx * 2 ^ 64 + 0x600000003) 0, js', s0, ?_, ?_, ?_, n1, ⟨?_, s3.journal, s3.touched⟩, ?_, ?_⟩
  · refine Shift.trans (i := 1) (j := 0) (Shift.trans (i := 0) (j := 1) m4 (s1.mono fun b hb => .inl hb)) ⟨rfl, fun _ => rfl, fun b hb => set_ne fun e => hb (.inr (.inr e))⟩
  · show (w2.set (w.ctx * 2 ^ 64 + 0x600000003) 0).mem (w2.ctx * 2 ^ 64 + 0x600000003) = 0
    rw [c2]; exact set_same
  · show (w2.set (w.ctx * 2 ^ 64 + 0x600000003) 0).mem (w2.ctx * 2 ^ 64 + 0x60000000d) = q
    rw [c2, set_ne (by omega), s1.2.2 _ hb, m5]
  · rw [set_ne (by simp only [jdatLen]; omega)]; exact s3.data
  · rw [n2, s4]
  · exact hpay.trans (s5.trans (run_deposit_end hC c2 hctx (Nat.le_trans (Nat.mul_le_mul_right _ (Nat.sub_le _ _)) hK) hK' ha'))

/-- After the undoing, a rejected creation gives 0. -/
theorem run_rejected_ef (hC : P.Has createCode) : Reaches P (.goto (P.addr "create@28.after") (g :: 1 :: a :: K :: S) w) (.exit K (0 :: S) w) := by
  enter hC in createCode
  rw [b_create_28_after]
  kexec []
  exact .refl _

theorem run_rejected_large (hC : P.Has createCode) : Reaches P (.goto (P.addr "create@29.after") (v :: g :: 1 :: a :: K :: S) w) (.exit K (0 :: S) w) := by
  enter hC in createCode
  rw [b_create_29_after]
  kexec []
  exact .refl _

/-- Only here is the size of the return data reset. -/
theorem run_rejected_oog (hC : P.Has createCode) (hctx : w.ctx < 2 ^ 32) :
    Reaches P (.goto (P.addr "create@30.after") (v :: g :: 1 :: a :: K :: S) w) (.exit K (0 :: S) (w.set (w.ctx * 2 ^ 64 + 0x600000003) 0)) := by
  enter hC in createCode
  rw [b_create_30_after]
  kexec [m_mstore_context_metadata2]
  rw [wadd_small (by omega), exec_mstore_ctx hctx (by omega)]
  kexec []
  exact .refl _

end Verif.Kasm
