import Verif.Kasm.AccessRead

/-!
The loops over the entries of an access list and their keys (`asm/transactions/common_decoding.asm:164-213`).
-/

namespace Verif.Kasm

variable {P : Prog} {S : List Nat} {w w' w0 : World} {ret a x p e k : Nat} {l : List Nat} {A A' : Nat → Prop} {g h : Nat → Nat → Option Nat}
  {hon H : Prop}

/-- An entry of an access list: an address and keys of its storage, as bytes. -/
structure Listing where
  addr : List Nat
  keys : List (List Nat)

/-- Its encoding: a list of the address and the list of keys (EIP-2930). -/
def Listing.rlp (t : Listing) : List Nat := rlpList (rlpStr t.addr ++ rlpList (t.keys.flatMap rlpStr))

/-- That of a list of entries, without the header. -/
def listRlp (ts : List Listing) : List Nat := ts.flatMap Listing.rlp

/-- A key of 32 bytes whose hash is a word. -/
structure KeyFits (P : Prog) (x : List Nat) : Prop where
  len : x.length = 32
  bytes : AllBytes x
  hash : P.slotKey (beVal x) < 2 ^ 256

structure Listing.Fits (P : Prog) (t : Listing) : Prop where
  len : t.addr.length = 20
  bytes : AllBytes t.addr
  hash : P.addrKey (beVal t.addr) < u256Max
  keys : ∀ x ∈ t.keys, KeyFits P x

/-- The hints for the keys, from the `p`-th one on, are not below the list of keys. -/
def LowKeys (inp : Nat → Nat) : Nat → List (List Nat) → Prop
  | _, [] => True
  | p, _ :: xs => keyBase ≤ 4 * inp (p + 1) ∧ LowKeys inp (p + 2) xs

/-- The same for entries. -/
def LowHints (inp : Nat → Nat) : Nat → List Listing → Prop
  | _, [] => True
  | p, t :: ts => addrBase ≤ 2 * inp p ∧ LowKeys inp (p + 1) t.keys ∧ LowHints inp (p + 1 + 2 * t.keys.length) ts

/-- The hints for the slots of these keys are right ones. -/
def SlotsRight (P : Prog) (g : Nat → Nat → Option Nat) (w : World) (a : Nat) : Nat → List (List Nat) → Prop
  | _, [] => True
  | p, x :: xs => SlotRight P g (w.skip p) a (beVal x) ∧ SlotsRight P g w a (p + 2) xs

/-- The same for entries. -/
def AllRight (P : Prog) (g : Nat → Nat → Option Nat) (w : World) : Nat → List Listing → Prop
  | _, [] => True
  | p, t :: ts => SlotsRight P g w (beVal t.addr) (p + 1) t.keys ∧ AllRight P g w (p + 1 + 2 * t.keys.length) ts

/-- The values of the keys in `L` become the original ones, or 0 where hints are not right; for the others nothing changes. -/
def KeysRead (P : Prog) (g : Nat → Nat → Option Nat) (hon : Prop) (L : Nat → Nat → Prop) (o o' : Nat → Nat → Option Nat) : Prop :=
  ∀ b j, j < 2 ^ 256 → (L b j → ∃ v, o' b j = some v ∧ (v = World.slotOf P g b j ∨ v = 0 ∧ ¬ hon)) ∧ (¬ L b j → o' b j = o b j)

theorem KeysRead.trans {L L' L'' : Nat → Nat → Prop} {o o' o'' : Nat → Nat → Option Nat} (h1 : KeysRead P g hon L o o') (h2 : KeysRead P g hon L' o' o'')
    (hL : ∀ b j, L'' b j ↔ L b j ∨ L' b j) : KeysRead P g hon L'' o o'' := by
  intro b j hj
  obtain ⟨a1, a2⟩ := h1 b j hj
  obtain ⟨b1, b2⟩ := h2 b j hj
  rw [hL]
  by_cases hl : L' b j
  · exact ⟨fun _ => b1 hl, fun hn => absurd (.inr hl) hn⟩
  · rw [b2 hl]
    exact ⟨fun hh => a1 (hh.resolve_right hl), fun hn => a2 fun hh => hn (.inl hh)⟩

theorem SlotRight.shift {i : Nat} {x : Nat} (hr : SlotRight P g (w.skip i) a x) (hf : Shift i ListCell w w') : SlotRight P g w' a x := by
  obtain ⟨n, qs, hK, hh⟩ := hr
  exact ⟨n, qs, SlotsAre.frame (w := w) hK hf slot_list, SlotHint.congr (w := w.skip i) hK hh (hf.2.1 0) fun b h1 h2 => hf.2.2 b (slot_list b (.inr ⟨h1, h2⟩))⟩

theorem KeyRight.shift {i : Nat} {B : Nat → Prop} (hr : KeyRight h (w.skip (1 + i)) a x) (hf : Shift i B w w') (hB : ∀ b, KeyCell b → ¬ B b) :
    KeyRight h (w'.skip 1) a x := by
  obtain ⟨n, qs, hK, hh⟩ := hr
  exact ⟨n, qs, show KeysAre w' n qs h from KeysAre.frame (w := w) hK hf hB, KeyHint.congr (w := w.skip (1 + i)) hK hh
    (by show w'.inp (0 + 1) = w.inp (0 + (1 + i)); rw [hf.2.1]; congr 1; omega) fun b h1 h2 => hf.2.2 b (hB b (.inr ⟨h1, h2⟩))⟩

/-- `decode_rlp_scalar` (`asm/rlp/decode.asm:68-72`) for bytes that may begin with zeros. -/
theorem run_decode_word (hP : P.Rlps) {x : List Nat} (hx : AllBytes x) (h0 : 2 ≤ x.length) (h32 : x.length ≤ 32) (hm : Rest w a (rlpStr x ++ l)) :
    Reaches P (.goto (P.addr "decode_rlp_scalar") (a :: ret :: S) w) (.goto ret ((a + (rlpStr x).length) :: beVal x :: S) w) := by
  have h := hm.left
  obtain ⟨b, e, -, r⟩ := run_decode_string (S := ret :: S) (ret := P.addr "decode_int_given_len") hP h.span h.2
  rcases rlpStr_cases x with ⟨y, -, rfl, -⟩ | e'
  · simp at h0
  · enter hP.rlp in rlpCode
    rw [b_decode_rlp_scalar]
    kexec []
    refine r.trans ?_
    rw [e'] at h
    rw [e', List.length_append] at e
    obtain rfl : b = a + (rlpHeader 0x80 x.length).length := by omega
    rw [show a + (rlpStr x).length = a + (rlpHeader 0x80 x.length).length + x.length by rw [e', List.length_append]; omega]
    exact run_decode_bytes hP hx (by omega) h32 h.right

theorem beVal_word {x : List Nat} (hx : AllBytes x) (hl : x.length ≤ 32) : beVal x < 2 ^ 256 := by
  refine Nat.lt_of_lt_of_le (beVal_lt x hx) (Nat.le_trans (Nat.pow_le_pow_right (by omega) hl) (by decide))

theorem beVal_addr {x : List Nat} (hx : AllBytes x) (hl : x.length = 20) : beVal x < u256Max := by
  refine Nat.lt_of_lt_of_le (beVal_lt x hx) ?_
  rw [hl]; decide

theorem cost_cell {v : Nat} : Shift 0 ListCell w (w.set costCell v) :=
  ⟨rfl, fun _ => rfl, fun _ hb => set_ne fun e => hb (.inr (.inr (.inr (.inl e))))⟩

/-- `asm/transactions/common_decoding.asm:197-210`: the keys of an entry. -/
theorem run_list_keys (hP : P.Lists) (ha : a < u256Max) (hha : P.addrKey a < u256Max) {E : Nat} : ∀ (xs : List (List Nat)) {p k pos : Nat} {w : World} {h : Nat → Nat → Option Nat},
    (∀ x ∈ xs, KeyFits P x) → Shift p ListCell w0 w → Touched w A h g e (k + xs.length) → rlpStart ≤ pos →
    pos + (xs.flatMap rlpStr ++ l).length ≤ 0xc00000000 → Rest w0 pos (xs.flatMap rlpStr ++ l) → LowKeys w0.inp p xs →
    (hon → SlotsRight P g w0 a p xs) → w.mem costCell + 1900 * xs.length < 2 ^ 256 →
    (H → xs = [] ∨ ∃ x, xs = [x] ∧ SlotRight P g w a (beVal x) ∧ KeyRight h (w.skip 1) a (beVal x)) →
    Returns P H (exec P b_sk_loop (pos :: (pos + (xs.flatMap rlpStr).length) :: a :: E :: S) w) (P.addr "decode_and_store_access_list_loop") fun s w' =>
      s = (pos + (xs.flatMap rlpStr).length) :: E :: S ∧ ∃ h', Touched w' A h' g e k ∧ Shift (p + 2 * xs.length) ListCell w0 w' ∧
        w'.mem costCell = w.mem costCell + 1900 * xs.length ∧
        KeysRead P g hon (fun b j => b = a ∧ ∃ x ∈ xs, j = beVal x) (w.orig h) (w'.orig h') := by
  intro xs
  induction xs with
  | nil =>
    intro p k pos w h hf hs hT hp hu hm hlow hr hcost hH
    rw [b_sk_loop]
    kexec []
    rw [List.flatMap_nil, List.length_nil, Nat.add_zero, if_neg (by simp)]
    renter hP.lists in accessListCode
    rw [b_end_sk]
    kexec []
    exact .ret ⟨rfl, h, hT, hs, by simp, fun b j hj => ⟨fun hh => by simp at hh, fun _ => rfl⟩⟩
  | cons x xs ih =>
    intro p k pos w h hf hs hT hp hu hm hlow hr hcost hH
    have hfx := hf x (by simp)
    have hm1 := hs.kept.rest hp hu hm
    have hx := beVal_word hfx.bytes (by rw [hfx.len]; exact Nat.le_refl _)
    have hlt := hm.1.lt
    simp only [List.flatMap_cons, List.append_assoc, List.length_append, List.length_cons] at *
    have hpos : 0 < (rlpStr x).length := by
      rcases rlpStr_cases x with ⟨y, -, rfl, e⟩ | e
      · rw [e]; simp
      · rw [e, List.length_append, hfx.len]; omega
    rw [b_sk_loop]
    kexec []
    rw [if_pos (by omega)]
    refine .of (run_decode_word hP.rlps hfx.bytes (by rw [hfx.len]; omega) (by rw [hfx.len]; omega) hm1) ?_
    renter hP.lists in accessListCode
    rw [b_common_decoding_7_after]
    kexec []
    have hlow' : keyBase ≤ 4 * w.inp 1 := by
      rw [hs.2.1 1, show 1 + p = p + 1 by omega]; exact hlow.1
    refine ((run_list_key hP hT ha hx hha hfx.hash hlow').mono (H' := H) (fun hh => ?_) fun s w' hq => hq).andThen ?_
    · rcases hH hh with hh | ⟨y, hy, h1, h2⟩
      · cases hh
      · obtain ⟨rfl, -⟩ := List.cons.inj hy
        exact ⟨h1, h2⟩
    rintro s w1 ⟨rfl, h1, v, hT1, f1, hc1, hv, ho⟩
    renter hP.lists in accessListCode
    rw [b_sk_loop_contd]
    rw [m_add_storage_key_cost, List.append_assoc, exec_load_global (by decide)]
    kexec [m_add_const]
    kexec [m_mstore_global_metadata]
    rw [exec_mstore_at (by decide)]
    kexec []
    rw [show w1.mem 21474836515 = w.mem costCell from hc1, wadd_small (by omega)]
    renter hP.lists in accessListCode
    have hT2 := hT1.cost (v := 1900 + w.mem costCell) (by omega)
    have f2 : Shift (p + 2) ListCell w0 (w1.set costCell (1900 + w.mem costCell)) := (hs.trans f1).trans cost_cell
    have hm2 := hm.right
    rw [show pos + ((rlpStr x).length + (xs.flatMap rlpStr).length) = pos + (rlpStr x).length + (xs.flatMap rlpStr).length by omega]
    refine (ih (fun y hy => hf y (by simp [hy])) f2 hT2 (by omega) (by omega) hm2 hlow.2 (fun hh => (hr hh).2)
      (by rw [set_same]; omega) (fun hh => .inl ?_)).mono id ?_
    · rcases hH hh with hh | ⟨y, hy, -⟩
      · cases hh
      · exact (List.cons.inj hy).2
    rintro s w' ⟨rfl, h', g1, g2, g3, g4⟩
    refine ⟨rfl, h', g1, ?_, ?_, ?_⟩
    · rw [show p + 2 * (xs.length + 1) = p + 2 + 2 * xs.length by omega]; exact g2
    · rw [g3, set_same]; omega
    · have e : KeysRead P g hon (fun b j => b = a ∧ j = beVal x) (w.orig h) ((w1.set costCell (1900 + w.mem costCell)).orig h1) := by
        intro b j hj
        rw [hT1.orig_frame (B := fun b => b = costCell) (i := 0) (w' := w1.set costCell (1900 + w.mem costCell)) ⟨rfl, fun _ => rfl, fun b hb => set_ne hb⟩
          (by simp only [KeyCell, keyEnd, keyBase, costCell]; omega) hj, ho b j hj]
        refine ⟨?_, fun hn => by rw [if_neg hn]⟩
        rintro ⟨rfl, rfl⟩
        rw [if_pos ⟨rfl, rfl⟩]
        exact ⟨v, rfl, hv.imp_right fun hh => ⟨hh.1, fun ho => hh.2 ((hr ho).1.shift hs)⟩⟩
      refine e.trans g4 fun b j => ?_
      simp only [List.mem_cons, exists_eq_or_imp]
      constructor
      · rintro ⟨h1, h2 | h2⟩
        · exact .inl ⟨h1, h2⟩
        · exact .inr ⟨h1, h2⟩
      · rintro (⟨h1, h2⟩ | ⟨h1, h2⟩)
        · exact ⟨h1, .inl h2⟩
        · exact ⟨h1, .inr h2⟩

/-- How many keys there are. -/
def keyCount (ts : List Listing) : Nat := (ts.map fun t => t.keys.length).sum

/-- The key is listed under the address. -/
def Listed (ts : List Listing) (b j : Nat) : Prop := ∃ t ∈ ts, b = beVal t.addr ∧ ∃ x ∈ t.keys, j = beVal x

/-- Right hints for an entry with at most one key. -/
def EntryRight (P : Prog) (A : Nat → Prop) (h g : Nat → Nat → Option Nat) (w : World) (t : Listing) : Prop :=
  AddrRight A w (beVal t.addr) ∧ (t.keys = [] ∨
    ∃ x, t.keys = [x] ∧ SlotRight P g (w.skip 1) (beVal t.addr) (beVal x) ∧ KeyRight h (w.skip 2) (beVal t.addr) (beVal x))

theorem rlpHeader_pos {b n : Nat} : 0 < (rlpHeader b n).length := by
  rw [rlpHeader]; split <;> simp

/-- `asm/transactions/common_decoding.asm:173-213`: the entries of a list. -/
theorem run_list_entries (hP : P.Lists) : ∀ (ts : List Listing) {p e k pos : Nat} {w : World} {A : Nat → Prop} {h : Nat → Nat → Option Nat},
    (∀ t ∈ ts, t.Fits P) → Shift p ListCell w0 w → Touched w A h g (e + ts.length) (k + keyCount ts) → rlpStart ≤ pos →
    pos + (listRlp ts ++ l).length ≤ 0xc00000000 → Rest w0 pos (listRlp ts ++ l) → LowHints w0.inp p ts →
    (hon → AllRight P g w0 p ts) → w.mem costCell + (2400 * ts.length + 1900 * keyCount ts) < 2 ^ 256 →
    (H → ts = [] ∨ ∃ t, ts = [t] ∧ EntryRight P A h g w t) →
    Returns P H (exec P b_decode_and_store_access_list_loop (pos :: (pos + (listRlp ts).length) :: ret :: S) w) ret fun s w' =>
      s = (pos + (listRlp ts).length) :: S ∧ ∃ h', Touched w' (fun b => (∃ t ∈ ts, b = beVal t.addr) ∨ A b) h' g e k ∧
        Shift (p + (ts.length + 2 * keyCount ts)) ListCell w0 w' ∧ w'.mem costCell = w.mem costCell + (2400 * ts.length + 1900 * keyCount ts) ∧
        KeysRead P g hon (Listed ts) (w.orig h) (w'.orig h') := by
  intro ts
  induction ts with
  | nil =>
    intro p e k pos w A h hf hs hT hp hu hm hlow hr hcost hH
    rw [b_decode_and_store_access_list_loop]
    kexec []
    rw [listRlp, List.flatMap_nil, List.length_nil, Nat.add_zero, if_neg (by simp)]
    renter hP.lists in accessListCode
    rw [b_decode_and_store_access_list_finish]
    kexec []
    exact .ret ⟨rfl, h, hT.iff fun b => by simp, hs, by simp [keyCount], fun b j hj => ⟨fun hh => by simp [Listed] at hh, fun _ => rfl⟩⟩
  | cons t ts ih =>
    intro p e k pos w A h hf hs hT hp hu hm hlow hr hcost hH
    have hft := hf t (by simp)
    have ha := beVal_addr hft.bytes hft.len
    have hk : keyCount (t :: ts) = t.keys.length + keyCount ts := by simp [keyCount]
    have hl : listRlp (t :: ts) = rlpHeader 0xc0 (rlpStr t.addr ++ rlpList (t.keys.flatMap rlpStr)).length ++
        (rlpStr t.addr ++ (rlpHeader 0xc0 (t.keys.flatMap rlpStr).length ++ (t.keys.flatMap rlpStr ++ listRlp ts))) := by
      simp only [listRlp, List.flatMap_cons, Listing.rlp, rlpList, List.append_assoc]
    have hn2 : (rlpStr t.addr ++ rlpList (t.keys.flatMap rlpStr)).length =
        (rlpStr t.addr).length + ((rlpHeader 0xc0 (t.keys.flatMap rlpStr).length).length + (t.keys.flatMap rlpStr).length) := by
      simp only [rlpList, List.length_append]
    rw [hl] at hm hu ⊢
    rw [hk] at hT hcost
    generalize hn : (rlpStr t.addr ++ rlpList (t.keys.flatMap rlpStr)).length = n1 at *
    generalize hn' : (t.keys.flatMap rlpStr).length = n2 at *
    simp only [List.append_assoc] at hm
    have hm1 := hs.kept.rest hp (by simpa only [List.append_assoc] using hu) hm
    have hlt := hm.1.lt
    simp only [List.length_append, List.length_cons] at *
    have hpos : 0 < (rlpHeader 0xc0 n1).length := rlpHeader_pos
    rw [b_decode_and_store_access_list_loop]
    kexec []
    rw [if_pos (by omega)]
    refine .of (run_decode_list hP.rlps (by omega) hm1.left.span hm1.left.2) ?_
    renter hP.lists in accessListCode
    rw [b_common_decoding_2_after]
    kexec []
    refine .of (run_decode_word hP.rlps hft.bytes (by rw [hft.len]; omega) (by rw [hft.len]; omega) hm1.right) ?_
    renter hP.lists in accessListCode
    rw [b_common_decoding_3_after]
    kexec []
    have hlow' : addrBase ≤ 2 * w.inp 0 := by
      rw [hs.2.1 0, Nat.zero_add]; exact hlow.1
    refine ((run_list_addr (e := e + ts.length) hP (by rw [Nat.add_assoc]; exact hT) ha hlow').mono (H' := H) (fun hh => ?_) fun s w' hq => hq).andThen ?_
    · rcases hH hh with hh | ⟨y, hy, h1, h2⟩
      · cases hh
      · obtain ⟨rfl, -⟩ := List.cons.inj hy
        exact h1
    rintro s w1 ⟨⟨c, rfl⟩, hT1, f1⟩
    have hc1 : w1.mem costCell = w.mem costCell := f1.2.2 _ (by
      simp only [AddrCell, JourArea, costCell, addrEnd, addrBase, jourLen, jdatLen, jourBase, jdatBase]; omega)
    renter hP.lists in accessListCode
    rw [b_common_decoding_5_after]
    kexec []
    rw [m_add_address_cost, List.append_assoc, exec_load_global (by decide)]
    kexec [m_add_const, m_mstore_global_metadata]
    rw [exec_mstore_at (by decide)]
    kexec []
    rw [show w1.mem 21474836515 = w.mem costCell from hc1, wadd_small (by omega)]
    have hT2 := hT1.cost (v := 2400 + w.mem costCell) (by omega)
    have f2 : Shift 1 (fun b => AddrCell b ∨ JourArea b ∨ b = costCell) w (w1.set costCell (2400 + w.mem costCell)) :=
      (f1.mono fun b hb => hb.elim .inl fun hb => .inr (.inl hb)).trans (j := 0) ⟨rfl, fun _ => rfl, fun b hb => set_ne fun e => hb (.inr (.inr e))⟩
    have f2k : ∀ b, KeyCell b → ¬ (AddrCell b ∨ JourArea b ∨ b = costCell) := by
      simp only [AddrCell, KeyCell, JourArea, costCell, addrEnd, addrBase, keyEnd, keyBase, jourLen, jdatLen, jourBase, jdatBase]; omega
    have f2' : Shift 1 ListCell w (w1.set costCell (2400 + w.mem costCell)) :=
      f2.mono fun b hb => hb.elim .inl fun hb => hb.elim (fun hb => .inr (.inr (.inl hb))) fun hb => .inr (.inr (.inr (.inl hb)))
    have f3 := hs.trans f2'
    have hc2 : (w1.set costCell (2400 + w.mem costCell)).mem costCell = 2400 + w.mem costCell := set_same
    have ho2 : ∀ b j, j < 2 ^ 256 → (w1.set costCell (2400 + w.mem costCell)).orig h b j = w.orig h b j := fun b j hj => hT.orig_frame f2 f2k hj
    rw [show (w1.set 21474836515 (2400 + w.mem costCell)) = w1.set costCell (2400 + w.mem costCell) from rfl]
    generalize w1.set costCell (2400 + w.mem costCell) = w2 at *
    have hm2 := f3.kept.rest hp (by simp only [List.length_append]; omega) hm
    refine .of (run_decode_list hP.rlps (by omega) hm2.right.right.left.span hm2.right.right.left.2) ?_
    renter hP.lists in accessListCode
    rw [b_common_decoding_6_after]
    kexec []
    rw [wadd_small (by omega)]
    have hkeys := run_list_keys (w0 := w0) (w := w2) (A := fun b => b = beVal t.addr ∨ A b) (g := g) (hon := hon) (H := H) (S := ret :: S) (k := k + keyCount ts)
      (e := e + ts.length) (h := h) (p := p + 1) (l := listRlp ts ++ l)
      (E := pos + ((rlpHeader 0xc0 n1).length + ((rlpStr t.addr).length + ((rlpHeader 0xc0 n2).length + (n2 + (listRlp ts).length)))))
      hP ha hft.hash t.keys hft.keys f3 (by rw [show k + keyCount ts + t.keys.length = k + (t.keys.length + keyCount ts) by omega]; exact hT2)
      (pos := pos + (rlpHeader 0xc0 n1).length + (rlpStr t.addr).length + (rlpHeader 0xc0 n2).length) (by omega)
      (by simp only [List.length_append]; omega) hm.right.right.right hlow.2.1 (fun hh => (hr hh).1) (by omega) (fun hh => ?_)
    rotate_left
    · rcases hH hh with hh | ⟨y, hy, -, h2⟩
      · cases hh
      · obtain ⟨rfl, -⟩ := List.cons.inj hy
        rcases h2 with h2 | ⟨x, h2, h3, h4⟩
        · exact .inl h2
        · exact .inr ⟨x, h2, h3.shift f2', KeyRight.shift (i := 1) h4 f2 f2k⟩
    rw [hn'] at hkeys
    rw [hn']
    refine hkeys.andThen ?_
    rintro s w3 ⟨rfl, h3, g1, g2, g3, g4⟩
    renter hP.lists in accessListCode
    rw [show pos + ((rlpHeader 0xc0 n1).length + ((rlpStr t.addr).length + ((rlpHeader 0xc0 n2).length + (n2 + (listRlp ts).length)))) =
      pos + (rlpHeader 0xc0 n1).length + (rlpStr t.addr).length + (rlpHeader 0xc0 n2).length + n2 + (listRlp ts).length by omega]
    have hm4 := hm.right.right.right.right
    rw [hn'] at hm4
    refine (ih (fun y hy => hf y (by simp [hy])) g2 g1 (by omega) (by omega) hm4 hlow.2.2 (fun hh => (hr hh).2)
      (by omega) (fun hh => .inl ?_)).mono id ?_
    · rcases hH hh with hh | ⟨y, hy, -⟩
      · cases hh
      · exact (List.cons.inj hy).2
    rintro s w' ⟨rfl, h', j1, j2, j3, j4⟩
    refine ⟨rfl, h', j1.iff fun b => ?_, ?_, ?_, ?_⟩
    · simp only [List.mem_cons, exists_eq_or_imp]
      constructor
      · rintro (h | h | h)
        · exact .inl (.inr h)
        · exact .inl (.inl h)
        · exact .inr h
      · rintro ((h | h) | h)
        · exact .inr (.inl h)
        · exact .inl h
        · exact .inr (.inr h)
    · rw [hk, show p + (ts.length + 1 + 2 * (t.keys.length + keyCount ts)) = p + 1 + 2 * t.keys.length + (ts.length + 2 * keyCount ts) by omega]; exact j2
    · rw [hk]; omega
    · have e1 : KeysRead P g hon (fun b j => b = beVal t.addr ∧ ∃ x ∈ t.keys, j = beVal x) (w.orig h) (w3.orig h3) := by
        intro b j hj
        rw [← ho2 b j hj]
        exact g4 b j hj
      exact e1.trans j4 fun b j => by simp only [Listed, List.mem_cons, exists_eq_or_imp]

/-- `asm/transactions/common_decoding.asm:164-213`: a whole list. -/
theorem run_access_list (hP : P.Lists) {ts : List Listing} (hf : ∀ t ∈ ts, t.Fits P) (hT : Touched w A h g (e + ts.length) (k + keyCount ts)) (ha : rlpStart ≤ a)
    (hu : a + (rlpList (listRlp ts) ++ l).length ≤ 0xc00000000) (hm : Rest w a (rlpList (listRlp ts) ++ l)) (hlow : LowHints w.inp 0 ts)
    (hcost : w.mem costCell + (2400 * ts.length + 1900 * keyCount ts) < 2 ^ 256) :
    Returns P (ts = [] ∨ ∃ t, ts = [t] ∧ EntryRight P A h g w t) (.goto (P.addr "decode_and_store_access_list") (a :: ret :: S) w) ret fun s w' =>
      s = (a + (rlpList (listRlp ts)).length) :: S ∧ ∃ h', Touched w' (fun b => (∃ t ∈ ts, b = beVal t.addr) ∨ A b) h' g e k ∧
        Shift (ts.length + 2 * keyCount ts) ListCell w w' ∧ w'.mem costCell = w.mem costCell + (2400 * ts.length + 1900 * keyCount ts) ∧
        KeysRead P g (AllRight P g w 0 ts) (Listed ts) (w.orig h) (w'.orig h') := by
  rw [rlpList, List.append_assoc] at hm hu
  have hlt := hm.1.lt
  simp only [List.length_append] at hlt hu
  renter hP.lists in accessListCode
  rw [b_decode_and_store_access_list]
  kexec []
  refine .of (run_decode_list hP.rlps (by omega) hm.left.span hm.left.2) ?_
  renter hP.lists in accessListCode
  rw [b_common_decoding_1_after]
  kexec []
  rw [wadd_small (by omega)]
  refine (run_list_entries (w0 := w) (p := 0) hP ts hf Shift.refl hT (by omega) (by rw [List.length_append]; omega) hm.right hlow id hcost id).mono id ?_
  rintro s w' ⟨rfl, h', g1, g2, g3, g4⟩
  rw [Nat.zero_add] at g2
  exact ⟨by rw [rlpList, List.length_append, Nat.add_assoc], h', g1, g2, g3, g4⟩

end Verif.Kasm
