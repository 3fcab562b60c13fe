import Verif.Kasm.AccessLoop
import Verif.Kasm.Balance
import Verif.Kasm.Code.Type3

/-!
Blob transactions (EIP-4844): the hashes of the blobs and the fee for them (`asm/transactions/common_decoding.asm:249-308`,
`asm/transactions/type_3.asm:83-118`).
-/

namespace Verif.Kasm

variable {P : Prog} {S : List Nat} {w w' : World} {ret a n : Nat} {l : List Nat}

/-- A kernel with this code and what it calls. -/
structure Prog.Blobs (P : Prog) : Prop where
  rlps : P.Rlps
  has : P.Has type3Code
  lists : P.Has accessListCode
  pays : P.Pays

/-- 32 bytes, as every hash has. -/
structure HashFits (x : List Nat) : Prop where
  len : x.length = 32
  bytes : AllBytes x

/-- EIP-4844: the hash of a commitment begins with its version, 1 for KZG. -/
def Versioned (x : List Nat) : Prop := x.head? = some 1

instance (x : List Nat) : Decidable (Versioned x) := inferInstanceAs (Decidable (_ = _))

theorem versioned_iff {x : List Nat} (hx : HashFits x) : wshr 248 (beVal x) = 1 ↔ Versioned x := by
  match x, hx with
  | b :: y, ⟨hl, hb⟩ =>
    have hy : y.length = 31 := by rw [List.length_cons] at hl; omega
    have h1 := beVal_lt y (fun c hc => hb c (by simp [hc]))
    have h2 : beVal [b] = b := by simp [beVal]
    rw [show b :: y = [b] ++ y from rfl, beVal_app, h2]
    rw [hy] at h1 ⊢
    have e : wshr 248 (b * 256 ^ 31 + beVal y) = b := by
      rw [wshr, if_neg (by decide)]
      generalize beVal y = z at *
      omega
    rw [e, Versioned]
    simp

theorem rest_above {b : Nat} {l' : List Nat} (h : Rest w a l) (hb : a + l.length ≤ b) : Rest (w.put b l') a l := by
  refine ⟨h.1, fun i hi => ?_⟩
  rw [← h.2 i hi]
  simp only [World.put]
  rw [if_neg (by omega)]

/-- `asm/transactions/common_decoding.asm:283-308`. -/
theorem run_blob_loop (hR : P.Rlps) (hL : P.Has accessListCode) : ∀ (hs : List (List Nat)) {pos i : Nat} {w : World}, (∀ x ∈ hs, HashFits x) →
    rlpStart ≤ pos → pos + (hs.flatMap rlpStr ++ l).length ≤ 0xc00000000 → Rest w pos (hs.flatMap rlpStr ++ l) → i + hs.length < 2 ^ 32 →
    ((∀ x ∈ hs, Versioned x) ∧
      Reaches P (exec P b_decode_and_store_blob_versioned_hashes_loop (pos :: (pos + (hs.flatMap rlpStr).length) :: (0x2600000000 + i) :: ret :: S) w)
        (.goto ret ((pos + (hs.flatMap rlpStr).length) :: S) (w.put (0x2600000000 + i) (hs.map beVal)))) ∨
    ((∃ x ∈ hs, ¬ Versioned x) ∧ ∃ s w',
      Reaches P (exec P b_decode_and_store_blob_versioned_hashes_loop (pos :: (pos + (hs.flatMap rlpStr).length) :: (0x2600000000 + i) :: ret :: S) w)
        (.goto (P.addr "invalid_txn_3") s w')) := by
  intro hs
  induction hs with
  | nil =>
    intro pos i w hf hp hu hm hi
    refine .inl ⟨by simp, ?_⟩
    rw [b_decode_and_store_blob_versioned_hashes_loop]
    kexec []
    rw [List.flatMap_nil, List.length_nil, Nat.add_zero, if_neg (by simp)]
    enter hL in accessListCode
    rw [b_decode_and_store_blob_versioned_hashes_finish]
    kexec []
    rw [show w.put (0x2600000000 + i) [] = w from
      World.mem_ext (fun b => by simp only [World.put, List.length_nil]; rw [if_neg (by omega)]) rfl rfl]
    exact .refl _
  | cons x xs ih =>
    intro pos i w hf hp hu hm hi
    have hx := hf x (by simp)
    have hlx := hx.len
    have hlen : (rlpStr x).length = 33 := by rw [rlpStr_short (by omega) (by omega), List.length_cons]; omega
    simp only [List.flatMap_cons, List.append_assoc] at hm hu ⊢
    simp only [List.length_append, hlen] at hu ⊢
    simp only [List.length_cons] at hi
    have hlow : Reaches P (exec P b_decode_and_store_blob_versioned_hashes_loop
        (pos :: (pos + (33 + (xs.flatMap rlpStr).length)) :: (0x2600000000 + i) :: ret :: S) w)
        (.goto (P.addr "common_decoding@14.after") ((pos + 33) :: beVal x :: (pos + (33 + (xs.flatMap rlpStr).length)) :: (0x2600000000 + i) :: ret :: S) w) := by
      rw [b_decode_and_store_blob_versioned_hashes_loop]
      kexec []
      rw [if_pos (by omega)]
      have := run_decode_word (ret := P.addr "common_decoding@14.after") (S := (pos + (33 + (xs.flatMap rlpStr).length)) :: (0x2600000000 + i) :: ret :: S)
        hR hx.bytes (by omega) (by omega) hm
      rw [hlen] at this
      exact this
    by_cases hv : Versioned x
    · have hstep : Reaches P (.goto (P.addr "common_decoding@14.after") ((pos + 33) :: beVal x :: (pos + (33 + (xs.flatMap rlpStr).length)) :: (0x2600000000 + i) :: ret :: S) w)
          (exec P b_decode_and_store_blob_versioned_hashes_loop ((pos + 33) :: (pos + 33 + (xs.flatMap rlpStr).length) :: (0x2600000000 + (i + 1)) :: ret :: S)
            (w.put (0x2600000000 + i) [beVal x])) := by
        enter hL in accessListCode
        rw [b_common_decoding_14_after]
        kexec [m_shr_const, m_eq_const, m_assert_nonzero1, m_increment, m_add_const]
        have hone := (versioned_iff hx).mpr hv
        rw [hone]
        rw [if_pos (by simp), exec_mstore_at (by omega), put_one]
        kexec []
        rw [wadd_small (by omega)]
        enter hL in accessListCode
        rw [show pos + (33 + (xs.flatMap rlpStr).length) = pos + 33 + (xs.flatMap rlpStr).length by omega,
          show 1 + (0x2600000000 + i) = 0x2600000000 + (i + 1) by omega]
        exact .refl _
      have hm' := hm.right
      rw [hlen] at hm'
      have hm2 : Rest (w.put (0x2600000000 + i) [beVal x]) (pos + 33) (xs.flatMap rlpStr ++ l) := rest_above hm' (by simp only [List.length_append]; omega)
      have hpre := hlow.trans hstep
      rcases ih (i := i + 1) (fun y hy => hf y (by simp [hy])) (by omega) (by simp only [List.length_append]; omega) hm2 (by omega) with ⟨h1, h2⟩ | ⟨⟨y, hy, h1⟩, s, w', h2⟩
      · refine .inl ⟨by simpa using ⟨hv, h1⟩, ?_⟩
        have h3 := hpre.trans h2
        rw [show (w.put (0x2600000000 + i) [beVal x]).put (0x2600000000 + (i + 1)) (xs.map beVal) = w.put (0x2600000000 + i) ((x :: xs).map beVal) from
          put_put (l := [beVal x]), show pos + 33 + (xs.flatMap rlpStr).length = pos + (33 + (xs.flatMap rlpStr).length) by omega] at h3
        exact h3
      · exact .inr ⟨⟨y, by simp [hy], h1⟩, s, w', hpre.trans h2⟩
    · refine .inr ⟨⟨x, by simp, hv⟩, (pos + 33) :: beVal x :: (pos + (33 + (xs.flatMap rlpStr).length)) :: (0x2600000000 + i) :: ret :: S, w, hlow.trans ?_⟩
      enter hL in accessListCode
      rw [b_common_decoding_14_after]
      kexec [m_shr_const, m_eq_const, m_assert_nonzero1]
      have hone := mt (versioned_iff hx).mp hv
      rw [if_neg (by simpa using fun h => hone h.symm)]
      exact .refl _

/-- What is in the list of hashes. -/
def hashRlp (hs : List (List Nat)) : List Nat := hs.flatMap rlpStr

theorem hashRlp_length {hs : List (List Nat)} (hf : ∀ x ∈ hs, HashFits x) : (hashRlp hs).length = 33 * hs.length := by
  induction hs with
  | nil => rfl
  | cons x xs ih =>
    have hx := (hf x (by simp)).len
    have := ih fun y hy => hf y (by simp [hy])
    simp only [hashRlp, List.flatMap_cons, List.length_append, List.length_cons] at *
    rw [rlpStr_short (by omega) (by omega), List.length_cons]
    omega

/-- What has been stored of the blobs: the most that is paid for their gas, the length of the list and the hashes. -/
def blobStored (w : World) (m : Nat) (hs : List (List Nat)) : World :=
  ((w.set 0x90000000b m).set 0x500000034 (33 * hs.length)).put 0x2600000000 (hs.map beVal)

/-- `asm/transactions/type_3.asm:38-40` (`common_decoding.asm:249-308`).  Hashes without the version are refused, and so is a transaction without
blobs. -/
theorem run_blob_part {m : Nat} {hs : List (List Nat)} (hP : P.Blobs) (hm0 : m < 2 ^ 256) (hf : ∀ x ∈ hs, HashFits x) (ha : rlpStart ≤ a)
    (hu : a + (rlpNum m ++ (rlpList (hashRlp hs) ++ l)).length ≤ 0xc00000000) (hm : Rest w a (rlpNum m ++ (rlpList (hashRlp hs) ++ l))) :
    (hs ≠ [] ∧ (∀ x ∈ hs, Versioned x) ∧
      Reaches P (.goto (P.addr "type_3@18.after") (a :: S) w)
        (.goto (P.addr "type_3@21.after") ((a + (rlpNum m ++ rlpList (hashRlp hs)).length) :: S) (blobStored w m hs))) ∨
    (hs = [] ∧ ∃ s w', Reaches P (.goto (P.addr "type_3@18.after") (a :: S) w) (.goto (P.addr "invalid_txn_2") s w')) ∨
    ((∃ x ∈ hs, ¬ Versioned x) ∧ ∃ s w', Reaches P (.goto (P.addr "type_3@18.after") (a :: S) w) (.goto (P.addr "invalid_txn_3") s w')) := by
  have hn := hashRlp_length hf
  have ha' := ha
  simp only [rlpStart] at ha'
  have hpre : Reaches P (.goto (P.addr "type_3@18.after") (a :: S) w)
      (.goto (P.addr "type_3@22.after") ((a + (rlpNum m).length + (rlpHeader 0xc0 (hashRlp hs).length).length) :: (hashRlp hs).length :: S) (w.set 0x90000000b m)) := by
    enter hP.has in type3Code
    rw [b_type_3_18_after]
    kexec []
    refine (hm.scalar hP.rlps hm0).trans ?_
    enter hP.has in type3Code
    rw [b_type_3_20_after]
    kexec [m_mstore_txn_field]
    rw [exec_mstore_at (by decide)]
    kexec []
    have h1 := (hm.right).set (b := 0x90000000b) (x := m) (by omega)
    rw [rlpList, List.append_assoc] at h1
    have hl := h1.1.lt
    simp only [List.length_append] at hl
    exact run_decode_list hP.rlps (by omega) h1.left.span h1.left.2
  have hr : Rest w (a + (rlpNum m).length + (rlpHeader 0xc0 (hashRlp hs).length).length) (hashRlp hs ++ l) := by
    have := hm.right
    rw [rlpList, List.append_assoc] at this
    exact this.right
  simp only [rlpList, List.length_append] at hu ⊢
  generalize hb : a + (rlpNum m).length + (rlpHeader 0xc0 (hashRlp hs).length).length = b at *
  by_cases h0 : hs = []
  · refine .inr (.inl ⟨h0, (hashRlp hs).length :: b :: P.addr "type_3@21.after" :: S, w.set 0x90000000b m, hpre.trans ?_⟩)
    subst h0
    enter hP.has in type3Code
    rw [b_type_3_22_after]
    kexec [m_assert_nonzero1]
    rw [if_neg (by simp [hashRlp])]
    exact .refl _
  · have hpos : 0 < hs.length := List.length_pos_iff.mpr h0
    have hlt := hr.1.lt
    rw [List.length_append] at hlt
    have hgo : Reaches P (.goto (P.addr "type_3@18.after") (a :: S) w)
        (exec P b_decode_and_store_blob_versioned_hashes_loop (b :: (b + (hashRlp hs).length) :: (0x2600000000 + 0) :: P.addr "type_3@21.after" :: S)
          ((w.set 0x90000000b m).set 0x500000034 (33 * hs.length))) := by
      refine hpre.trans ?_
      enter hP.has in type3Code
      rw [b_type_3_22_after]
      kexec [m_assert_nonzero1]
      rw [if_pos (by omega)]
      enter hP.lists in accessListCode
      rw [b_decode_and_store_blob_versioned_hashes]
      kexec [m_mstore_global_metadata]
      rw [exec_mstore_at (by decide)]
      kexec []
      rw [wadd_small (by omega), hn]
      exact .refl _
    have hr2 : Rest ((w.set 0x90000000b m).set 0x500000034 (33 * hs.length)) b (hs.flatMap rlpStr ++ l) := (hr.set (by omega)).set (by omega)
    rcases run_blob_loop (i := 0) (ret := P.addr "type_3@21.after") (S := S) hP.rlps hP.lists hs hf (by omega)
      (by rw [List.length_append, show (hs.flatMap rlpStr).length = (hashRlp hs).length from rfl]; omega) hr2 (by omega) with ⟨h1, h2⟩ | ⟨h1, s, w', h2⟩
    · refine .inl ⟨h0, h1, ?_⟩
      rw [show a + ((rlpNum m).length + ((rlpHeader 0xc0 (hashRlp hs).length).length + (hashRlp hs).length)) = b + (hashRlp hs).length by omega]
      exact hgo.trans h2
    · exact .inr (.inr ⟨h1, s, w', hgo.trans h2⟩)

end Verif.Kasm
