import Verif.Kasm.RlpClaims
import Verif.Kasm.Type0Claims
import Verif.Kasm.Code.CreateAddr

/-!
The addresses of new contracts (`asm/core/create_addresses.asm`).
-/

namespace Verif.Kasm

variable {P : Prog} {S : List Nat} {w w' : World} {ret a b' v n : Nat}

/-- A kernel with this code and what it calls. -/
structure Prog.NewAddrs (P : Prog) : Prop where
  rlps : P.Rlps
  has : P.Has createAddrCode

/-- The low `k` bytes of `v`, the most significant first. -/
def beFix (k v : Nat) : List Nat := (List.range k).map fun i => v / 256 ^ (k - 1 - i) % 256

/-- What is hashed for CREATE: the RLP list of the sender's twenty bytes and the nonce. -/
def createInput (sender nonce : Nat) : List Nat := rlpList (rlpStr (beFix 20 sender) ++ rlpNum nonce)

/-- What is hashed for CREATE2 (EIP-1014). -/
def create2Input (sender salt codeHash : Nat) : List Nat := 0xff :: (beFix 20 sender ++ (beFix 32 salt ++ beFix 32 codeHash))

theorem beFix_length (k v : Nat) : (beFix k v).length = k := by simp [beFix]

theorem beFix_bytes (k v : Nat) : AllBytes (beFix k v) := by
  intro b hb
  obtain ⟨i, -, rfl⟩ := List.mem_map.1 hb
  exact Nat.mod_lt _ (by decide)

theorem store_fix {k : Nat} : storeBytes w a v k = w.put a (beFix k v) := by
  refine World.mem_ext (fun b => ?_) (storeBytes_ctx ..) (storeBytes_inp ..)
  rw [storeBytes_mem]
  simp only [World.put, beFix_length]
  split
  · rename_i h
    simp only [beFix]
    rw [List.getD_eq_getElem?_getD, List.getElem?_map, List.getElem?_range (by omega)]
    rfl
  · rfl

theorem beFix_str {k : Nat} (h : k ≠ 1) (h' : k ≤ 55) : rlpStr (beFix k v) = (0x80 + k) :: beFix k v := by
  rw [rlpStr_short (by rw [beFix_length]; exact h) (by rw [beFix_length]; exact h'), beFix_length]

theorem beFix_succ (k v : Nat) : beFix (k + 1) v = beFix k (v / 256) ++ [v % 256] := by
  rw [beFix, List.range_succ, List.map_append, List.map_singleton]
  congr 1
  · refine List.map_congr_left fun i hi => ?_
    have := List.mem_range.1 hi
    rw [Nat.div_div_eq_div_mul, ← Nat.pow_succ']
    congr 3; omega
  · simp

theorem beVal_beFix : ∀ {k v : Nat}, v < 256 ^ k → beVal (beFix k v) = v
  | 0, v, h => by
    have : v = 0 := by omega
    subst this; rfl
  | k + 1, v, h => by
    rw [Nat.pow_succ] at h
    rw [beFix_succ, beVal_snoc, beVal_beFix (by omega)]; omega

theorem beFix_inj {k u v : Nat} (hu : u < 256 ^ k) (hv : v < 256 ^ k) (h : beFix k u = beFix k v) : u = v := by
  rw [← beVal_beFix hu, h, beVal_beFix hv]

/-- `asm/rlp/encode.asm:22-38`, for strings that may begin with zeros. -/
theorem run_encode_fix (hP : P.Rlps) {k : Nat} (h1 : 2 ≤ k) (h32 : k ≤ 32) (ha : Span a (1 + k)) :
    Reaches P (.goto (P.addr "encode_rlp_fixed") (k :: a :: v :: ret :: S) w)
      (.goto ret ((a + (1 + k)) :: S) (w.put a (rlpStr (beFix k v)))) := by
  have hl := ha.lt
  enter hP.rlp in rlpCode
  rw [b_encode_rlp_fixed]
  kexec [m_add_const, m_increment]
  rw [wadd_small (by omega), exec_set_at ha]
  kexec []
  rw [wadd_small (by omega)]
  refine (run_unpacking hP.copies (by omega) h32 (by rw [Nat.add_comm]; exact (ha.one (by omega)).le (by omega))).trans ?_
  enter hP.rlp in rlpCode
  rw [b_encode_rlp_fixed_finish]
  kexec []
  rw [store_fix, show 1 + a = a + [128 + k].length by simp [Nat.add_comm], put_put, beFix_str (by omega) (by omega)]
  rw [show a + [128 + k].length + k = a + (1 + k) by simp; omega]
  exact .refl _

theorem createBody_length {x m : Nat} (hm : m < 2 ^ 256) : (rlpStr (beFix 20 x) ++ rlpNum m).length ≤ 54 := by
  rw [List.length_append, beFix_str (by decide) (by decide), List.length_cons, beFix_length]
  have := rlpNum_length hm
  omega

/-- The address of a contract created by CREATE: the low twenty bytes of the hash of `[sender, nonce]`. -/
theorem C134_create (hP : P.NewAddrs) {x m : Nat} (hm : m < 2 ^ 256) (hi : ∀ j < 2, w.inp j < 2 ^ 256) :
    Returns P (128 ≤ m → w.inp 0 = bits m) (.goto (P.addr "get_create_address") (x :: m :: ret :: S) w) ret fun s w' =>
      s = P.hash (createInput x m) % 2 ^ 160 :: S ∧ w'.ctx = w.ctx ∧
        ∀ b, b < 0xb00000009 ∨ 0xb00000009 + (createInput x m).length ≤ b → w'.mem b = w.mem b := by
  have hlen := createBody_length (x := x) hm
  have hh1 : rlpHeader 0xc0 (rlpStr (beFix 20 x) ++ rlpNum m).length = [0xc0 + (rlpStr (beFix 20 x) ++ rlpNum m).length] := rlpHeader_short (by omega)
  have hs20 : (rlpStr (beFix 20 x)).length = 21 := by
    rw [beFix_str (by decide) (by decide), List.length_cons, beFix_length]
  have hil : (createInput x m).length = 22 + (rlpNum m).length := by
    rw [createInput, rlpList, hh1, List.length_append, List.length_append, List.length_singleton, hs20]; omega
  have hnl := rlpNum_length hm
  renter hP.has in createAddrCode
  rw [b_get_create_address]
  kexec [m_add_const]
  rw [show wadd 9 0xb00000001 = 0xb0000000a by decide]
  refine .of (run_encode_fix hP.rlps (k := 20) (by decide) (by decide) (a := 0xb0000000a) ⟨by decide, by decide, by decide⟩) ?_
  renter hP.has in createAddrCode
  rw [b_create_addresses_1_after]
  kexec []
  refine (run_encode_scalar (w := w.put 0xb0000000a (rlpStr (beFix 20 x))) hP.rlps hm (a := 0xb0000001f) ⟨by decide, by decide, by omega⟩ (hi 0 (by decide))).andThen ?_
  rintro s w1 ⟨rfl, he⟩
  have hw : Written (w.put 0xb0000000a (rlpStr (beFix 20 x))) w1 0xb0000001f (rlpNum m) := he ▸ written_if
  have hi1 : w1.inp 0 < 2 ^ 256 := by
    rw [he]
    by_cases h : 128 ≤ m
    · rw [if_pos h]; exact hi 1 (by decide)
    · rw [if_neg h]; exact hi 0 (by decide)
  renter hP.has in createAddrCode
  rw [b_create_addresses_2_after]
  kexec []
  have hbody : HasBytes w1 (0xb00000009 + 1) (rlpStr (beFix 20 x) ++ rlpNum m) := by
    refine HasBytes.app (fun i hi' => ?_) fun i hi' => ?_
    · rw [hw.else_ _ (by omega)]
      exact (written_put (w := w) (w' := w) rfl rfl).here i hi'
    · rw [hs20]; exact hw.here i hi'
  have hspan : Span 0xb00000009 (createInput x m).length := ⟨by decide, by decide, by omega⟩
  have hend : 0xb0000001f + (rlpNum m).length = 0xb00000009 + (createInput x m).length := by omega
  have hlist := C125_list (ret := P.addr "create_addresses@3.after") (S := ret :: S) hP.rlps hspan (w := w1) (by rw [hh1]; exact hbody)
  rw [hh1, List.length_singleton] at hlist
  rw [hend]
  refine ((hlist hi1).mono (fun _ h => absurd h (by omega)) fun _ _ => id).andThen ?_
  rintro s w2 ⟨rfl, h2, h3, h4⟩
  renter hP.has in createAddrCode
  rw [b_create_addresses_3_after]
  kexec [m_u256_to_addr, m_mod_const]
  have hby : AllBytes (rlpList (rlpStr (beFix 20 x) ++ rlpNum m)) :=
    (rlpHeader_bytes (by decide) (by omega)).app ((rlpStr_bytes (beFix_bytes _ _) (by rw [beFix_length]; decide)).app (rlpNum_bytes hm))
  have hspan' : Span 0xb00000009 (rlpList (rlpStr (beFix 20 x) ++ rlpNum m)).length := hspan
  rw [exec_keccak ⟨hspan'.2.1, hspan'.2.2⟩, hspan'.key, h2.bytes hby]
  kexec []
  renter hP.has in createAddrCode
  rw [b_observe_new_address]
  kexec []
  renter hP.has in createAddrCode
  rw [b_create_addresses_4_after]
  kexec []
  refine .ret ⟨rfl, by rw [h3, hw.ctx]; rfl, fun b hb => ?_⟩
  have hb' : b < 0xb00000009 ∨ 0xb00000009 + (22 + (rlpNum m).length) ≤ b := by rw [← hil]; exact hb
  rw [h4 b hb, hw.else_ b (by omega)]
  simp only [World.put, hs20]
  rw [if_neg (by omega)]

/-- Storing over bytes just written puts one after the other. -/
theorem put_after {l l' : List Nat} (h : b' = a + l.length) : (w.put a l).put b' l' = w.put a (l ++ l') := h ▸ put_put

/-- The address of a contract created by CREATE2: the low twenty bytes of the hash of `0xff`, the sender, the salt and the hash of the code. -/
theorem C134_create2 (hP : P.NewAddrs) {x c t : Nat} :
    Reaches P (.goto (P.addr "get_create2_address") (x :: c :: t :: ret :: S) w)
      (.goto ret (P.hash (create2Input x t c) % 2 ^ 160 :: S) (w.put 0x700000000 (create2Input x t c))) := by
  enter hP.has in createAddrCode
  rw [b_get_create2_address]
  kexec [m_increment, m_add_const, m_u256_to_addr, m_mod_const]
  rw [exec_set_at (a := 0x700000000) (k := 1) ⟨by decide, by decide, by decide⟩]
  kexec []
  rw [show wadd 1 0x700000000 = 0x700000001 by decide]
  rw [exec_mstore32 (a := 0x700000001) (n := 20) ⟨by decide, by decide, by decide⟩]
  rw [exec_mstore32 (a := 0x700000001 + 20) (n := 32) ⟨by decide, by decide, by decide⟩]
  rw [exec_mstore32 (a := 0x700000001 + 20 + 32) (n := 32) ⟨by decide, by decide, by decide⟩]
  kexec []
  rw [store_fix, store_fix, store_fix]
  have e : (((w.put 0x700000000 [255]).put 0x700000001 (beFix 20 x)).put (0x700000001 + 20) (beFix 32 t)).put (0x700000001 + 20 + 32) (beFix 32 c) =
      w.put 0x700000000 (create2Input x t c) := by
    rw [put_after (by rw [beFix_length]), put_after (by rw [beFix_length]), put_after (by rfl)]
    simp only [create2Input, List.singleton_append]
  rw [e]
  have hl : (create2Input x t c).length = 85 := by simp [create2Input, beFix_length]
  have hby : AllBytes (create2Input x t c) := by
    intro b hb
    rcases List.mem_cons.1 hb with rfl | hb
    · decide
    · exact ((beFix_bytes _ _).app ((beFix_bytes _ _).app (beFix_bytes _ _))) b hb
  have hm : HasBytes (w.put 0x700000000 (create2Input x t c)) 0x700000000 (create2Input x t c) := (written_put (w := w) rfl rfl).here
  have hk := hm.bytes hby
  rw [hl] at hk
  rw [exec_keccak ⟨by decide, by decide⟩, show key 0x700000000 = 0x700000000 by decide, hk]
  kexec []
  enter hP.has in createAddrCode
  rw [b_observe_new_address]
  kexec []
  enter hP.has in createAddrCode
  rw [b_create_addresses_5_after]
  kexec []
  exact .refl _

/-- Different senders and nonces never have the same bytes hashed. -/
theorem C134_create_binding {x m x' m' : Nat} (hx : x < 2 ^ 160) (hx' : x' < 2 ^ 160) (h : createInput x m = createInput x' m') : x = x' ∧ m = m' := by
  have h := (rlpHeader_prefix h).2
  obtain ⟨h1, h2⟩ := rlpStr_prefix h
  refine ⟨beFix_inj (by simpa using hx) (by simpa using hx') h1, ?_⟩
  exact (rlpNum_prefix (x := []) (y := []) (by simpa using h2)).1

/-- Different senders, salts and hashes neither. -/
theorem C134_create2_binding {x t c x' t' c' : Nat} (hx : x < 2 ^ 160) (hx' : x' < 2 ^ 160) (ht : t < 2 ^ 256) (ht' : t' < 2 ^ 256)
    (hc : c < 2 ^ 256) (hc' : c' < 2 ^ 256) (h : create2Input x t c = create2Input x' t' c') : x = x' ∧ t = t' ∧ c = c' := by
  have h := (List.cons.inj h).2
  obtain ⟨h1, h⟩ := List.append_inj h (by rw [beFix_length, beFix_length])
  obtain ⟨h2, h3⟩ := List.append_inj h (by rw [beFix_length, beFix_length])
  exact ⟨beFix_inj (by simpa using hx) (by simpa using hx') h1, beFix_inj (by simpa using ht) (by simpa using ht') h2,
    beFix_inj (by simpa using hc) (by simpa using hc') h3⟩

/-- And no bytes are hashed for both instructions. -/
theorem C134_kinds {x m y t c : Nat} (hm : m < 2 ^ 256) : createInput x m ≠ create2Input y t c := by
  have hlen := createBody_length (x := x) hm
  intro h
  rw [createInput, rlpList, rlpHeader_short (by omega), create2Input, List.singleton_append] at h
  have := (List.cons.inj h).1
  omega

/-! ### An example -/

def newAddrCode : List (String × List I) := createAddrCode ++ rlpCode ++ copyCode ++ [("panic", b_panic)]

def newAddrProg : Prog := tableProg newAddrCode List.sum

theorem newAddrProg_has : newAddrProg.Has newAddrCode := tableProg_has _ _ (by decide +kernel) (by decide +kernel) (by decide +kernel)

theorem newAddrProg_ok : newAddrProg.NewAddrs :=
  ⟨⟨tableProg_copies _ _ (by decide +kernel) (by decide +kernel) (by decide +kernel) (by simp +contextual [newAddrCode]),
    newAddrProg_has.mono (by simp +contextual [newAddrCode]), newAddrProg_has.mono (by simp +contextual [newAddrCode])⟩,
    newAddrProg_has.mono (by simp +contextual [newAddrCode])⟩

/-- The account 5 with nonce 300: what is hashed is `d8 94 00…05 82 01 2c`. -/
example : createInput 5 300 = [0xd8, 0x94] ++ List.replicate 19 0 ++ [5, 0x82, 1, 0x2c] := by decide +kernel

example : ∃ w', Reaches newAddrProg (.goto (newAddrProg.addr "get_create_address") [5, 300, 77] ⟨fun _ => 0, 0, fun _ => 9⟩)
    (.goto 77 [(createInput 5 300).sum % 2 ^ 160] w') := by
  obtain ⟨s, w', r, rfl, -⟩ := (C134_create (w := ⟨fun _ => 0, 0, fun _ => 9⟩) (ret := 77) (S := []) newAddrProg_ok (x := 5) (m := 300) (by decide)
    (fun _ _ => show 9 < 2 ^ 256 by decide)).sure fun _ => by decide +kernel
  exact ⟨w', r⟩

end Verif.Kasm
