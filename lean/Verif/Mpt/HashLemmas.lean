import Verif.Mpt.Hash
import Verif.Mpt.Insert
/-! Injectivity of the node encoding. -/
namespace Verif.Mpt
open Rlp (SizeOk Item)

/-! ### hex prefix -/

def unpack : Bytes → Key
  | [] => []
  | b :: bs => ⟨b.toNat / 16, by have := b.toNat_lt; omega⟩ :: ⟨b.toNat % 16, by omega⟩ :: unpack bs

theorem unpack_pack : ∀ (k : Key), k.length % 2 = 0 → unpack (pack k) = k
  | [], _ => rfl
  | [_], h => by simp at h
  | a :: b :: k, h => by
    have ih := unpack_pack k (by simp at h; omega)
    have ht := Rlp.toNat_ofNat (n := 16 * a.val + b.val) (by omega)
    simp only [pack, unpack, ih, ht, List.cons.injEq, and_true]
    constructor
    · apply Fin.ext; simp; omega
    · apply Fin.ext; simp; try omega

/-- Decoder used to show that the hex-prefix encoding is injective. -/
def unHex : Bytes → Option (Key × Bool)
  | [] => none
  | b :: bs =>
    let f := b.toNat / 16
    if f % 2 = 0 then some (unpack bs, f / 2 = 1)
    else some (⟨b.toNat % 16, by omega⟩ :: unpack bs, f / 2 = 1)

theorem unHex_hexPrefix (k : Key) (l : Bool) : unHex (hexPrefix k l) = some (k, l) := by
  unfold hexPrefix
  by_cases he : k.length % 2 = 0
  · simp only [he, if_true]
    have ht := Rlp.toNat_ofNat (n := 16 * (if l = true then 2 else 0)) (by split <;> omega)
    simp only [unHex, ht]
    cases l <;> simp [unpack_pack k he]
  · simp only [he, if_false]
    cases k with
    | nil => simp at he
    | cons a k =>
      have ha := a.isLt
      have ht := Rlp.toNat_ofNat (n := 16 * ((if l = true then 2 else 0) + 1) + a.val)
        (by split <;> omega)
      have hk : k.length % 2 = 0 := by simp at he; omega
      simp only [unHex, ht]
      have h1 : ¬ (16 * ((if l = true then 2 else 0) + 1) + a.val) / 16 % 2 = 0 := by
        split <;> omega
      simp only [h1, if_false, unpack_pack k hk, Option.some.injEq, Prod.mk.injEq, List.cons.injEq,
        and_true]
      constructor
      · apply Fin.ext; simp; try omega
      · cases l <;> simp <;> omega

theorem hexPrefix_inj {k k' : Key} {l l' : Bool} (h : hexPrefix k l = hexPrefix k' l') :
    k = k' ∧ l = l' := by
  have h1 := unHex_hexPrefix k l
  rw [h, unHex_hexPrefix] at h1
  simpa [eq_comm] using h1

theorem pack_length : ∀ k : Key, (pack k).length ≤ k.length
  | [] => by simp [pack]
  | [_] => by simp [pack]
  | a :: b :: k => by have := pack_length k; simp [pack]; omega

theorem hexPrefix_length (k : Key) (l : Bool) : (hexPrefix k l).length ≤ k.length + 1 := by
  unfold hexPrefix
  by_cases he : k.length % 2 = 0
  · simp only [he, if_true, List.length_cons]; have := pack_length k; omega
  · simp only [he, if_false]
    cases k with
    | nil => simp
    | cons a k => have := pack_length k; simp; omega

/-! ### sizes -/

theorem beBytes_length_le' (n : Nat) : (Rlp.beBytes n).length ≤ n := by
  induction n using Rlp.beBytes.induct with
  | case1 => simp [Rlp.beBytes]
  | case2 n h ih =>
    rw [Rlp.beBytes]
    simp only [h, dite_false, List.length_append, List.length_singleton]
    omega

theorem header_length (b n : Nat) : (Rlp.header b n).length ≤ n + 1 := by
  unfold Rlp.header
  split
  · simp
  · simp; exact beBytes_length_le' n

theorem str_length (s : Bytes) : (Rlp.str s).length ≤ 2 * s.length + 1 := by
  unfold Rlp.str
  split
  · split
    · simp
    · have := header_length 0x80 1
      simp only [List.length_append, List.length_singleton]; omega
  · have := header_length 0x80 s.length
    simp only [List.length_append]; omega

theorem h256_sizeOk (h : H256) : SizeOk h.bytes := by
  unfold SizeOk; rw [h.len]; decide

theorem item_length (e : Enc) (h : ∀ b, e = .raw b → b.length < 32) : e.item.length ≤ 65 := by
  cases e with
  | raw b => have := h b rfl; simp [Enc.item]; omega
  | hashed x => have := str_length x.bytes; rw [x.len] at this; simp [Enc.item]; omega

theorem hashIfLarge_raw {keccak b b'} (h : hashIfLarge keccak b = .raw b') :
    b' = b ∧ b.length < 32 := by
  unfold hashIfLarge at h
  split at h
  · simp at h
  · simp only [Enc.raw.injEq] at h; exact ⟨h.symm, by omega⟩

theorem enc_raw_length {keccak t b} (h : enc keccak t = .raw b) : b.length < 32 := by
  cases t with
  | empty => simp [enc] at h; subst h; simp
  | hash => simp [enc] at h
  | branch => simp only [enc] at h; have := hashIfLarge_raw h; rw [this.1]; exact this.2
  | ext => simp only [enc] at h; have := hashIfLarge_raw h; rw [this.1]; exact this.2
  | leaf => simp only [enc] at h; have := hashIfLarge_raw h; rw [this.1]; exact this.2

theorem enc_item_length (keccak t) : (enc keccak t).item.length ≤ 65 :=
  item_length _ (fun _ h => enc_raw_length h)

theorem flatten_length_le (l : List Bytes) (m : Nat) (h : ∀ x ∈ l, x.length ≤ m) :
    l.flatten.length ≤ l.length * m := by
  induction l with
  | nil => simp
  | cons a l ih =>
    have h1 := h a (by simp)
    have h2 := ih (fun x hx => h x (by simp [hx]))
    simp only [List.flatten_cons, List.length_append, List.length_cons, Nat.succ_mul]
    omega

theorem branch_payload_ok (keccak : Bytes → H256) (c : Nib → Node) (v : Bytes) (h : v.length < 2 ^ 60) :
    SizeOk (((List.finRange 16).map (fun i => (enc keccak (c i)).item)).flatten ++ Rlp.str v) := by
  have h1 := flatten_length_le ((List.finRange 16).map (fun i => (enc keccak (c i)).item)) 65 (by
    intro x hx
    simp only [List.mem_map] at hx
    obtain ⟨i, -, rfl⟩ := hx
    exact enc_item_length _ _)
  have h2 := str_length v
  simp only [List.length_map, List.length_finRange] at h1
  unfold SizeOk
  rw [List.length_append]
  omega

theorem ext_payload_ok (keccak : Bytes → H256) (n : Key) (c : Node) (h : n.length ≤ 64) :
    SizeOk (Rlp.str (hexPrefix n false) ++ (enc keccak c).item) := by
  have h1 := str_length (hexPrefix n false)
  have h2 := hexPrefix_length n false
  have h3 := enc_item_length keccak c
  unfold SizeOk
  rw [List.length_append]
  omega

theorem leaf_payload_ok (n : Key) (v : Bytes) (h : n.length ≤ 64) (hv : v.length < 2 ^ 60) :
    SizeOk (Rlp.str (hexPrefix n true) ++ Rlp.str v) := by
  have h1 := str_length (hexPrefix n true)
  have h2 := hexPrefix_length n true
  have h3 := str_length v
  unfold SizeOk
  rw [List.length_append]
  omega

theorem hp_sizeOk (n l) (h : List.length n ≤ 64) : SizeOk (hexPrefix n l) := by
  have h2 := hexPrefix_length n l
  unfold SizeOk
  omega

theorem val_sizeOk (v : Bytes) (h : v.length < 2 ^ 60) : SizeOk v := by
  unfold SizeOk; omega

theorem hashIfLarge_item {keccak b} (h : Item b) : Item (hashIfLarge keccak b).item := by
  unfold hashIfLarge
  split
  · exact .str _ (h256_sizeOk _)
  · exact h

theorem item_isItem {keccak t} (hs : Small t) : Item (enc keccak t).item := by
  cases t with
  | empty =>
    have : (enc keccak .empty).item = Rlp.str [] := by
      simp [enc, Enc.item, Rlp.str, Rlp.header]
    rw [this]; exact .str _ (by unfold SizeOk; decide)
  | hash h => exact .str _ (h256_sizeOk _)
  | branch c v => exact hashIfLarge_item (.list _ (branch_payload_ok _ _ _ hs.1))
  | ext n c => exact hashIfLarge_item (.list _ (ext_payload_ok _ _ _ hs.1))
  | leaf n v => exact hashIfLarge_item (.list _ (leaf_payload_ok _ _ hs.1 hs.2))

/-- An inlined node never looks like a 32-byte hash. -/
theorem raw_ne_hash {keccak t b h} (hs : Small t) (he : enc keccak t = .raw b) :
    b ≠ Rlp.str (H256.bytes h) := by
  intro hb
  cases t with
  | empty =>
    simp only [enc, Enc.raw.injEq] at he
    have : b.length = 1 := by rw [← he]; rfl
    have h2 : Rlp.str [] = b := by rw [← he]; simp [Rlp.str, Rlp.header]
    have h3 := Rlp.str_inj (by unfold SizeOk; decide) (h256_sizeOk h) (h2.trans hb)
    have h4 := h.len
    rw [← h3] at h4
    simp at h4
  | hash => simp [enc] at he
  | branch c v =>
    simp only [enc] at he
    have h1 := hashIfLarge_raw he
    exact Rlp.str_ne_listOf (h256_sizeOk h) (branch_payload_ok keccak c v hs.1)
      (hb.symm.trans h1.1)
  | ext n c =>
    simp only [enc] at he
    have h1 := hashIfLarge_raw he
    exact Rlp.str_ne_listOf (h256_sizeOk h) (ext_payload_ok keccak n c hs.1) (hb.symm.trans h1.1)
  | leaf n v =>
    simp only [enc] at he
    have h1 := hashIfLarge_raw he
    exact Rlp.str_ne_listOf (h256_sizeOk h) (leaf_payload_ok n v hs.1 hs.2) (hb.symm.trans h1.1)

/-- The child reference determines the encoding. -/
theorem item_inj {keccak t t'} (hs : Small t) (hs' : Small t')
    (h : (enc keccak t).item = (enc keccak t').item) : enc keccak t = enc keccak t' := by
  cases he : enc keccak t with
  | raw b =>
    cases he' : enc keccak t' with
    | raw b' => rw [he, he'] at h; exact congrArg Enc.raw h
    | hashed x => rw [he, he'] at h; exact absurd h (raw_ne_hash hs he)
  | hashed x =>
    cases he' : enc keccak t' with
    | raw b' => rw [he, he'] at h; exact absurd h.symm (raw_ne_hash hs' he')
    | hashed y =>
      rw [he, he'] at h
      have := Rlp.str_inj (h256_sizeOk x) (h256_sizeOk y) h
      cases x; cases y; simp_all

/-- Shape of an encoding in terms of the bytes. -/
theorem enc_of_bytes {keccak t b} (h : bytesOf keccak t = some b) (hne : t ≠ .empty) :
    enc keccak t = hashIfLarge keccak b := by
  cases t <;> simp_all [bytesOf, enc]

theorem Small.bytes_list {keccak t b} (hs : Small t) (hb : bytesOf keccak t = some b)
    (hne : t ≠ .empty) : ∃ p, SizeOk p ∧ b = Rlp.listOf p := by
  cases t with
  | empty => simp at hne
  | hash => simp [bytesOf] at hb
  | branch c v =>
    simp only [bytesOf, Option.some.injEq] at hb
    exact ⟨_, branch_payload_ok _ _ _ hs.1, hb.symm⟩
  | ext n c =>
    simp only [bytesOf, Option.some.injEq] at hb
    exact ⟨_, ext_payload_ok _ _ _ hs.1, hb.symm⟩
  | leaf n v =>
    simp only [bytesOf, Option.some.injEq] at hb
    exact ⟨_, leaf_payload_ok _ _ hs.1 hs.2, hb.symm⟩

theorem NoCollision.branch {keccak c v d w} (h : NoCollision keccak (.branch c v) (.branch d w))
    (i : Nib) : NoCollision keccak (c i) (d i) := by
  intro a b ha hb he
  refine h a b ?_ ?_ he
  · rcases ha with ⟨t, ht, hb⟩ | ⟨t, ht, hb⟩
    · exact .inl ⟨t, .branch ht, hb⟩
    · exact .inr ⟨t, .branch ht, hb⟩
  · rcases hb with ⟨t, ht, hb⟩ | ⟨t, ht, hb⟩
    · exact .inl ⟨t, .branch ht, hb⟩
    · exact .inr ⟨t, .branch ht, hb⟩

theorem NoCollision.ext {keccak n c m d} (h : NoCollision keccak (.ext n c) (.ext m d)) :
    NoCollision keccak c d := by
  intro a b ha hb he
  refine h a b ?_ ?_ he
  · rcases ha with ⟨t, ht, hb⟩ | ⟨t, ht, hb⟩
    · exact .inl ⟨t, .ext ht, hb⟩
    · exact .inr ⟨t, .ext ht, hb⟩
  · rcases hb with ⟨t, ht, hb⟩ | ⟨t, ht, hb⟩
    · exact .inl ⟨t, .ext ht, hb⟩
    · exact .inr ⟨t, .ext ht, hb⟩

/-- Equal bytes before hashing imply agreement; `rec` supplies agreement of the children. -/
theorem bytes_agree {keccak p q b} (hp : bytesOf keccak p = some b) (hq : bytesOf keccak q = some b)
    (sp : Small p) (sq : Small q)
    (hb : ∀ c v d w, p = .branch c v → q = .branch d w → ∀ i, enc keccak (c i) = enc keccak (d i) →
      Agree keccak (c i) (d i))
    (hx : ∀ n c m d, p = .ext n c → q = .ext m d → enc keccak c = enc keccak d →
      Agree keccak c d) : Agree keccak p q := by
  have hitems : ∀ (n : Key) (l : Bool) (x : Bytes), List.length n ≤ 64 → Item x →
      ∀ e ∈ [Rlp.str (hexPrefix n l), x], Item e := by
    intro n l x hn hx e he
    simp only [List.mem_cons, List.not_mem_nil, or_false] at he
    rcases he with rfl | rfl
    · exact .str _ (hp_sizeOk _ _ hn)
    · exact hx
  have hbranch : ∀ c v, Small (.branch c v) →
      ∀ e ∈ ((List.finRange 16).map (fun i => (enc keccak (c i)).item)) ++ [Rlp.str v], Item e := by
    intro c v hs e he
    simp only [List.mem_append, List.mem_map, List.mem_singleton] at he
    rcases he with ⟨i, -, rfl⟩ | rfl
    · exact item_isItem (hs.2 i)
    · exact .str _ (val_sizeOk _ hs.1)
  -- an empty node encodes to a string, the others to lists
  have hempty : ∀ t, Small t → t ≠ .empty → bytesOf keccak t = some [0x80] → False := by
    intro t hs hne h
    obtain ⟨p, hp, he⟩ := hs.bytes_list h hne
    have : ([0x80] : Bytes) = Rlp.str [] := by simp [Rlp.str, Rlp.header]
    rw [this] at he
    exact Rlp.str_ne_listOf (by unfold SizeOk; decide) hp he
  -- two-item lists and seventeen-item lists differ
  have h217 : ∀ (n : Key) l (x : Bytes) c v, List.length n ≤ 64 → Item x → Small (.branch c v) →
      [Rlp.str (hexPrefix n l), x].flatten =
        (((List.finRange 16).map (fun i => (enc keccak (c i)).item)) ++ [Rlp.str v]).flatten →
      False := by
    intro n l x c v hn hx hs he
    have := Rlp.items_inj (hitems n l x hn hx) (hbranch c v hs) he
    have := congrArg List.length this
    simp at this
  cases p with
  | hash => simp [bytesOf] at hp
  | empty =>
    simp only [bytesOf, Option.some.injEq] at hp
    subst hp
    by_cases hq0 : q = .empty
    · subst hq0; exact .empty
    · exact (hempty q sq hq0 hq).elim
  | leaf n v =>
    simp only [bytesOf, Option.some.injEq] at hp
    cases q with
    | hash => simp [bytesOf] at hq
    | empty =>
      simp only [bytesOf, Option.some.injEq] at hq
      exact (hempty (.leaf n v) sp (by simp) (by simp [bytesOf, hp, hq])).elim
    | leaf m w =>
      simp only [bytesOf, Option.some.injEq] at hq
      have h1 := Rlp.listOf_inj (leaf_payload_ok _ _ sp.1 sp.2) (leaf_payload_ok _ _ sq.1 sq.2)
        (hp.trans hq.symm)
      have h2 := Rlp.items_inj (l := [_, _]) (l' := [_, _])
        (hitems n true (Rlp.str v) sp.1 (.str _ (val_sizeOk _ sp.2)))
        (hitems m true (Rlp.str w) sq.1 (.str _ (val_sizeOk _ sq.2))) (by simpa using h1)
      simp only [List.cons.injEq, and_true] at h2
      have h3 := Rlp.str_inj (hp_sizeOk _ _ sp.1) (hp_sizeOk _ _ sq.1) h2.1
      have h4 := Rlp.str_inj (val_sizeOk _ sp.2) (val_sizeOk _ sq.2) h2.2
      obtain ⟨rfl, -⟩ := hexPrefix_inj h3
      subst h4
      exact .leaf _ _
    | ext m d =>
      simp only [bytesOf, Option.some.injEq] at hq
      have h1 := Rlp.listOf_inj (leaf_payload_ok _ _ sp.1 sp.2) (ext_payload_ok keccak _ _ sq.1)
        (hp.trans hq.symm)
      have h2 := Rlp.items_inj (l := [_, _]) (l' := [_, _])
        (hitems n true (Rlp.str v) sp.1 (.str _ (val_sizeOk _ sp.2)))
        (hitems m false _ sq.1 (item_isItem sq.2)) (by simpa using h1)
      simp only [List.cons.injEq, and_true] at h2
      have h3 := Rlp.str_inj (hp_sizeOk _ _ sp.1) (hp_sizeOk _ _ sq.1) h2.1
      have := (hexPrefix_inj h3).2
      simp at this
    | branch d w =>
      simp only [bytesOf, Option.some.injEq] at hq
      have h1 := Rlp.listOf_inj (leaf_payload_ok _ _ sp.1 sp.2) (branch_payload_ok keccak _ _ sq.1)
        (hp.trans hq.symm)
      exact (h217 n true (Rlp.str v) d w sp.1 (.str _ (val_sizeOk _ sp.2)) sq
        (by simpa using h1)).elim
  | ext n c =>
    simp only [bytesOf, Option.some.injEq] at hp
    cases q with
    | hash => simp [bytesOf] at hq
    | empty =>
      simp only [bytesOf, Option.some.injEq] at hq
      exact (hempty (.ext n c) sp (by simp) (by simp [bytesOf, hp, hq])).elim
    | leaf m w =>
      simp only [bytesOf, Option.some.injEq] at hq
      have h1 := Rlp.listOf_inj (ext_payload_ok keccak _ _ sp.1) (leaf_payload_ok _ _ sq.1 sq.2)
        (hp.trans hq.symm)
      have h2 := Rlp.items_inj (l := [_, _]) (l' := [_, _])
        (hitems n false _ sp.1 (item_isItem sp.2))
        (hitems m true (Rlp.str w) sq.1 (.str _ (val_sizeOk _ sq.2))) (by simpa using h1)
      simp only [List.cons.injEq, and_true] at h2
      have h3 := Rlp.str_inj (hp_sizeOk _ _ sp.1) (hp_sizeOk _ _ sq.1) h2.1
      have := (hexPrefix_inj h3).2
      simp at this
    | ext m d =>
      simp only [bytesOf, Option.some.injEq] at hq
      have h1 := Rlp.listOf_inj (ext_payload_ok keccak _ _ sp.1) (ext_payload_ok keccak _ _ sq.1)
        (hp.trans hq.symm)
      have h2 := Rlp.items_inj (l := [_, _]) (l' := [_, _])
        (hitems n false _ sp.1 (item_isItem sp.2))
        (hitems m false _ sq.1 (item_isItem sq.2)) (by simpa using h1)
      simp only [List.cons.injEq, and_true] at h2
      have h3 := Rlp.str_inj (hp_sizeOk _ _ sp.1) (hp_sizeOk _ _ sq.1) h2.1
      obtain ⟨rfl, -⟩ := hexPrefix_inj h3
      exact .ext _ (hx _ _ _ _ rfl rfl (item_inj sp.2 sq.2 h2.2))
    | branch d w =>
      simp only [bytesOf, Option.some.injEq] at hq
      have h1 := Rlp.listOf_inj (ext_payload_ok keccak _ _ sp.1) (branch_payload_ok keccak _ _ sq.1)
        (hp.trans hq.symm)
      exact (h217 n false _ d w sp.1 (item_isItem sp.2) sq (by simpa using h1)).elim
  | branch c v =>
    simp only [bytesOf, Option.some.injEq] at hp
    cases q with
    | hash => simp [bytesOf] at hq
    | empty =>
      simp only [bytesOf, Option.some.injEq] at hq
      exact (hempty (.branch c v) sp (by simp) (by simp [bytesOf, hp, hq])).elim
    | leaf m w =>
      simp only [bytesOf, Option.some.injEq] at hq
      have h1 := Rlp.listOf_inj (leaf_payload_ok _ _ sq.1 sq.2) (branch_payload_ok keccak _ _ sp.1)
        (hq.trans hp.symm)
      exact (h217 m true (Rlp.str w) c v sq.1 (.str _ (val_sizeOk _ sq.2)) sp
        (by simpa using h1)).elim
    | ext m d =>
      simp only [bytesOf, Option.some.injEq] at hq
      have h1 := Rlp.listOf_inj (ext_payload_ok keccak _ _ sq.1) (branch_payload_ok keccak _ _ sp.1)
        (hq.trans hp.symm)
      exact (h217 m false _ c v sq.1 (item_isItem sq.2) sp (by simpa using h1)).elim
    | branch d w =>
      simp only [bytesOf, Option.some.injEq] at hq
      have h1 := Rlp.listOf_inj (branch_payload_ok keccak _ _ sp.1)
        (branch_payload_ok keccak _ _ sq.1) (hp.trans hq.symm)
      have h2 := Rlp.items_inj (hbranch c v sp) (hbranch d w sq) (by simpa using h1)
      obtain ⟨h3, h4⟩ := List.append_inj' h2 rfl
      have h5 := Rlp.str_inj (val_sizeOk _ sp.1) (val_sizeOk _ sq.1) (by simpa using h4)
      subst h5
      refine .branch _ (fun i => hb _ _ _ _ rfl rfl i (item_inj (sp.2 i) (sq.2 i) ?_))
      have := List.map_inj_left.1 h3 i (List.mem_finRange i)
      exact this

theorem enc_agree {keccak} : ∀ {p q : Node}, Small p → Small q → NoCollision keccak p q →
    enc keccak p = enc keccak q → Agree keccak p q := by
  intro p
  induction p with
  | hash h => intro q _ _ _ he; exact .hashL (by rw [← he]; rfl)
  | empty =>
    intro q sp sq hn he
    cases hq : bytesOf keccak q with
    | none => cases q <;> simp_all [bytesOf, enc]
    | some b =>
      by_cases hq0 : q = .empty
      · subst hq0; exact .empty
      · rw [enc_of_bytes hq hq0] at he
        have hb : b = [0x80] := by
          simp only [enc] at he
          exact (hashIfLarge_raw he.symm).1.symm
        exact bytes_agree (b := [0x80]) rfl (by rw [hq, hb]) sp sq (by simp) (by simp)
  | leaf n v =>
    intro q sp sq hn he
    cases hq : bytesOf keccak q with
    | none =>
      cases q with
      | hash h => exact .hashR (by rw [he]; rfl)
      | _ => simp [bytesOf] at hq
    | some b =>
      have hp : bytesOf keccak (.leaf n v) = some _ := rfl
      refine bytes_agree hp (b := _) ?_ sp sq (by simp) (by simp)
      rw [hq]
      by_cases hq0 : q = .empty
      · subst hq0
        simp only [bytesOf, Option.some.injEq] at hq
        simp only [enc] at he
        rw [(hashIfLarge_raw he).1] at hq
        rw [hq]
      · rw [enc_of_bytes hq hq0, enc_of_bytes hp (by simp)] at he
        unfold hashIfLarge at he
        split at he <;> split at he
        · simp only [Enc.hashed.injEq] at he
          rw [hn _ _ (.inl ⟨_, .refl _, hp⟩) (.inr ⟨_, .refl _, hq⟩) he]
        · simp at he
        · simp at he
        · simp only [Enc.raw.injEq] at he; rw [he]
  | ext n c ih =>
    intro q sp sq hn he
    cases hq : bytesOf keccak q with
    | none =>
      cases q with
      | hash h => exact .hashR (by rw [he]; rfl)
      | _ => simp [bytesOf] at hq
    | some b =>
      have hp : bytesOf keccak (.ext n c) = some _ := rfl
      refine bytes_agree hp (b := _) ?_ sp sq (by simp) ?_
      · rw [hq]
        by_cases hq0 : q = .empty
        · subst hq0
          simp only [bytesOf, Option.some.injEq] at hq
          simp only [enc] at he
          rw [(hashIfLarge_raw he).1] at hq
          rw [hq]
        · rw [enc_of_bytes hq hq0, enc_of_bytes hp (by simp)] at he
          unfold hashIfLarge at he
          split at he <;> split at he
          · simp only [Enc.hashed.injEq] at he
            rw [hn _ _ (.inl ⟨_, .refl _, hp⟩) (.inr ⟨_, .refl _, hq⟩) he]
          · simp at he
          · simp at he
          · simp only [Enc.raw.injEq] at he; rw [he]
      · intro n' c' m d h1 h2 h3
        simp only [Node.ext.injEq] at h1
        obtain ⟨rfl, rfl⟩ := h1
        subst h2
        exact ih sp.2 sq.2 hn.ext h3
  | branch c v ih =>
    intro q sp sq hn he
    cases hq : bytesOf keccak q with
    | none =>
      cases q with
      | hash h => exact .hashR (by rw [he]; rfl)
      | _ => simp [bytesOf] at hq
    | some b =>
      have hp : bytesOf keccak (.branch c v) = some _ := rfl
      refine bytes_agree hp (b := _) ?_ sp sq ?_ (by simp)
      · rw [hq]
        by_cases hq0 : q = .empty
        · subst hq0
          simp only [bytesOf, Option.some.injEq] at hq
          simp only [enc] at he
          rw [(hashIfLarge_raw he).1] at hq
          rw [hq]
        · rw [enc_of_bytes hq hq0, enc_of_bytes hp (by simp)] at he
          unfold hashIfLarge at he
          split at he <;> split at he
          · simp only [Enc.hashed.injEq] at he
            rw [hn _ _ (.inl ⟨_, .refl _, hp⟩) (.inr ⟨_, .refl _, hq⟩) he]
          · simp at he
          · simp at he
          · simp only [Enc.raw.injEq] at he; rw [he]
      · intro c' v' d w h1 h2 i h3
        simp only [Node.branch.injEq] at h1
        obtain ⟨rfl, rfl⟩ := h1
        subst h2
        exact ih i (sp.2 i) (sq.2 i) (hn.branch i) h3

/-- Agreement of tries without hash nodes is equality. -/
theorem Agree.eq {keccak p q} (h : Agree keccak p q) (hp : HashFree p) (hq : HashFree q) :
    p = q := by
  induction h with
  | hashL => simp [HashFree] at hp
  | hashR => simp [HashFree] at hq
  | empty => rfl
  | leaf => rfl
  | ext n _ ih => rw [ih hp hq]
  | branch v _ ih =>
    congr 1
    funext i
    exact ih i (hp i) (hq i)

/-- Agreeing tries never store two different values under a key. -/
theorem Agree.lookup {keccak p q} (h : Agree keccak p q) (k : Key) (v w : Bytes)
    (hp : lookup p k = some (.val v)) (hq : lookup q k = some (.val w)) : v = w := by
  induction h generalizing k with
  | hashL => simp only [Mpt.lookup] at hp; split at hp <;> simp at hp
  | hashR => simp only [Mpt.lookup] at hq; split at hq <;> simp at hq
  | empty => simp at hp
  | leaf => rw [hp] at hq; simpa using hq
  | ext n _ ih =>
    simp only [Mpt.lookup] at hp hq
    split at hp
    · rename_i h; rw [if_pos h] at hq; exact ih _ hp hq
    · simp at hp
  | branch v _ ih =>
    cases k with
    | nil => simp only [Mpt.lookup] at hp hq; rw [hp] at hq; simpa using hq
    | cons i k => exact ih i k hp hq

/-- Equal roots: either the encodings are equal, or one side is a bare hash node. -/
theorem rootHash_agree {keccak p q} (sp : Small p) (sq : Small q) (hn : NoCollision keccak p q)
    (h : rootHash keccak p = rootHash keccak q) :
    Agree keccak p q ∨ p = .hash (rootHash keccak q) ∨ q = .hash (rootHash keccak p) := by
  have hraw : ∀ t b, enc keccak t = .raw b → bytesOf keccak t = some b ∧ b.length < 32 := by
    intro t b ht
    refine ⟨?_, enc_raw_length ht⟩
    cases t with
    | empty => simpa [enc, bytesOf] using ht
    | hash => simp [enc] at ht
    | branch => simp only [enc] at ht; simp only [bytesOf]; rw [(hashIfLarge_raw ht).1]
    | ext => simp only [enc] at ht; simp only [bytesOf]; rw [(hashIfLarge_raw ht).1]
    | leaf => simp only [enc] at ht; simp only [bytesOf]; rw [(hashIfLarge_raw ht).1]
  have hhashed : ∀ t x, enc keccak t = .hashed x → t = .hash x ∨
      ∃ b, bytesOf keccak t = some b ∧ 32 ≤ b.length ∧ x = keccak b := by
    intro t x ht
    cases t with
    | empty => simp [enc] at ht
    | hash y => left; simp only [enc, Enc.hashed.injEq] at ht; rw [ht]
    | branch =>
      right
      refine ⟨_, rfl, ?_⟩
      simp only [enc, hashIfLarge] at ht
      split at ht
      · rename_i hl; exact ⟨hl, by simpa using ht.symm⟩
      · simp at ht
    | ext =>
      right
      refine ⟨_, rfl, ?_⟩
      simp only [enc, hashIfLarge] at ht
      split at ht
      · rename_i hl; exact ⟨hl, by simpa using ht.symm⟩
      · simp at ht
    | leaf =>
      right
      refine ⟨_, rfl, ?_⟩
      simp only [enc, hashIfLarge] at ht
      split at ht
      · rename_i hl; exact ⟨hl, by simpa using ht.symm⟩
      · simp at ht
  cases hp : enc keccak p with
  | raw b =>
    obtain ⟨hb, hbl⟩ := hraw p b hp
    have hrp : rootHash keccak p = keccak b := by simp [rootHash, hp]
    cases hq : enc keccak q with
    | raw b' =>
      obtain ⟨hb', -⟩ := hraw q b' hq
      have hrq : rootHash keccak q = keccak b' := by simp [rootHash, hq]
      have := hn b b' (.inl ⟨_, .refl _, hb⟩) (.inr ⟨_, .refl _, hb'⟩)
        (by rw [← hrp, ← hrq, h])
      subst this
      exact .inl (enc_agree sp sq hn (by rw [hp, hq]))
    | hashed x =>
      have hrq : rootHash keccak q = x := by simp [rootHash, hq]
      rcases hhashed q x hq with rfl | ⟨b', hb', hl, hx⟩
      · right; right; rw [h, hrq]
      · have := hn b b' (.inl ⟨_, .refl _, hb⟩) (.inr ⟨_, .refl _, hb'⟩)
          (by rw [← hrp, ← hx, ← hrq, h])
        subst this
        omega
  | hashed x =>
    have hrp : rootHash keccak p = x := by simp [rootHash, hp]
    cases hq : enc keccak q with
    | raw b =>
      obtain ⟨hb, hbl⟩ := hraw q b hq
      have hrq : rootHash keccak q = keccak b := by simp [rootHash, hq]
      rcases hhashed p x hp with rfl | ⟨b', hb', hl, hx⟩
      · right; left; rw [← h, hrp]
      · have := hn b b' (.inr ⟨_, .refl _, hb⟩) (.inl ⟨_, .refl _, hb'⟩)
          (by rw [← hrq, ← hx, ← hrp, h])
        subst this
        omega
    | hashed y =>
      have hrq : rootHash keccak q = y := by simp [rootHash, hq]
      exact .inl (enc_agree sp sq hn (by rw [hp, hq, ← hrp, ← hrq, h]))

end Verif.Mpt
