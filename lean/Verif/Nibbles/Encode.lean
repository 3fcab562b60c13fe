import Verif.Nibbles.Lemmas
import Verif.Mpt.HashLemmas
/-! Byte, hex-prefix and text encodings of packed nibble strings. -/
namespace Verif.Nibbles
open Verif.Mpt (Bytes Key Nib)
set_option exponentiation.threshold 400

theorem toBE_length (n x : Nat) : (toBE n x).length = n := by
  induction n generalizing x with
  | zero => rfl
  | succ n ih => simp [toBE, ih]

theorem toBE_cons (n x : Nat) : toBE (n + 1) x = UInt8.ofNat (x / 256 ^ n % 256) :: toBE n x := by
  induction n generalizing x with
  | zero => simp [toBE]
  | succ n ih =>
    rw [toBE, ih, toBE]
    simp only [List.cons_append, List.cons.injEq, and_true]
    rw [Nat.div_div_eq_div_mul, Nat.pow_succ, Nat.mul_comm 256]

theorem toBE_drop {m n : Nat} (h : m ≤ n) (x : Nat) : (toBE n x).drop (n - m) = toBE m x := by
  induction n with
  | zero =>
    have : m = 0 := by omega
    subst this; rfl
  | succ n ih =>
    by_cases hm : m = n + 1
    · subst hm; simp
    · have e : n + 1 - m = (n - m) + 1 := by omega
      rw [e, toBE_cons, List.drop_succ_cons, ih (by omega)]

theorem toBE_mod (n x : Nat) : toBE n (x % 256 ^ n) = toBE n x := by
  induction n generalizing x with
  | zero => rfl
  | succ n ih =>
    rw [toBE, toBE, Nat.pow_succ, Nat.mul_comm (256 ^ n), Nat.mod_mul_right_div_self, ih,
      Nat.mod_mul_right_mod]

theorem pow256 (n : Nat) : (256 : Nat) ^ n = 16 ^ (2 * n) := by rw [Nat.pow_mul]

theorem toBE_val (n : Nat) : ∀ k : Key, k.length = 2 * n → toBE n (val k) = Mpt.pack k := by
  induction n with
  | zero =>
    intro k h
    have : k = [] := List.eq_nil_of_length_eq_zero h
    subst this; rfl
  | succ n ih =>
    intro k h
    match k, h with
    | a :: b :: k, h =>
      simp only [List.length_cons] at h
      have hk : k.length = 2 * n := by omega
      have e : a :: b :: k = [a, b] ++ k := rfl
      rw [toBE_cons, Mpt.pack, ← toBE_mod n, pow256, ← hk, e, val_div, val_mod, ih k hk]
      congr 2
      rw [val_cons]
      simp
      omega

theorem beVal_append (a b : Bytes) :
    Rlp.beVal (a ++ b) = Rlp.beVal a * 256 ^ b.length + Rlp.beVal b := by
  unfold Rlp.beVal
  rw [List.foldl_append]
  generalize List.foldl (fun a b => a * 256 + b.toNat) 0 a = x
  induction b generalizing x with
  | nil => simp
  | cons y b ih =>
    simp only [List.foldl_cons, List.length_cons]
    rw [ih, ih (0 * 256 + y.toNat), Nat.pow_succ]
    simp only [Nat.add_mul, Nat.zero_mul, Nat.zero_add]
    rw [Nat.mul_assoc, Nat.mul_comm 256, ← Nat.add_assoc]

theorem beVal_toBE (n x : Nat) : Rlp.beVal (toBE n x) = x % 256 ^ n := by
  induction n generalizing x with
  | zero => simp [toBE, Rlp.beVal, Nat.mod_one]
  | succ n ih =>
    rw [toBE, beVal_append, ih]
    simp only [List.length_singleton, Nat.pow_one]
    have : Rlp.beVal [UInt8.ofNat (x % 256)] = x % 256 := by
      simp [Rlp.beVal]
    rw [this, Nat.pow_succ, Nat.mul_comm (256 ^ n), Nat.mod_mul]
    omega

theorem pack_length (n : Nat) : ∀ k : Key, k.length = 2 * n → (Mpt.pack k).length = n := by
  intro k h
  rw [← toBE_val n k h, toBE_length]

theorem beVal_pack {n : Nat} {k : Key} (h : k.length = 2 * n) : Rlp.beVal (Mpt.pack k) = val k := by
  rw [← toBE_val n k h, beVal_toBE, pow256, ← h, Nat.mod_eq_of_lt (val_lt k)]

/-- The key with a zero nibble in front if its length is odd. -/
def even (k : Key) : Key := if k.length % 2 = 0 then k else 0 :: k

theorem even_length (k : Key) : (even k).length = 2 * ((k.length + 1) / 2) := by
  unfold even; split
  · omega
  · simp only [List.length_cons]; omega

theorem val_zero_cons (k : Key) : val (0 :: k) = val k := by rw [val_cons]; simp

theorem val_even (k : Key) : val (even k) = val k := by
  unfold even; split
  · rfl
  · exact val_zero_cons k

theorem bytesBe_rep {k : Key} (hk : k.length ≤ 80) :
    bytesBe (rep k) = some (Mpt.pack (even k)) := by
  have hc : (rep k).count = k.length := rfl
  unfold bytesBe minBytes
  rw [hc, if_pos (by omega), toBE_drop (by omega), ← toBE_val _ _ (even_length k), val_even]
  rfl

theorem fromBytesBe_rep {k : Key} {n : Nat} (hk : k.length = 2 * n) (h0 : 0 < n) (hn : n ≤ 33) :
    fromBytesBe (Mpt.pack k) = some (rep k) := by
  have hl := pack_length n k hk
  unfold fromBytesBe
  have : (Mpt.pack k).isEmpty = false := by
    cases h : Mpt.pack k with
    | nil => rw [h] at hl; simp at hl; omega
    | cons => rfl
  rw [this]
  simp only [Bool.false_eq_true, if_false, hl]
  rw [if_neg (by omega)]
  simp only [fromBE, beVal_pack hk, rep, hk]
  congr 2
  omega

theorem toHexPrefix_rep {k : Key} (hk : k.length ≤ 79) (l : Bool) :
    toHexPrefix (rep k) l = some (Mpt.hexPrefix k l) := by
  unfold toHexPrefix
  have hc : (rep k).count = k.length := rfl
  have hp : (rep k).packed = val k := rfl
  rw [hc, hp]
  simp only
  rw [if_pos (by omega)]
  congr 1
  -- the buffer is the 41-byte encoding
  have hbuf : (0 : UInt8) :: toBE 40 (val k) = toBE 41 (val k) := by
    rw [toBE_cons 40]
    have : val k / 256 ^ 40 = 0 := Nat.div_eq_of_lt (by
      have := val_lt320 (k := k) (by omega)
      rw [pow256, pow16]; exact this)
    rw [this]; rfl
  have hmod : ∀ (b : Bytes) (i : Nat) (f : UInt8 → UInt8), (b.modify i f).drop i
      = (b.drop i).modify 0 f := by
    intro b i f
    induction i generalizing b with
    | zero => simp
    | succ i ih =>
      cases b with
      | nil => simp
      | cons x b => simp [List.modify_succ_cons, ih]
  rw [hbuf, hmod, toBE_drop (by omega)]
  by_cases h : k.length % 2 = 0
  · have e : (k.length + 1 + 1) / 2 = k.length / 2 + 1 := by omega
    rw [e, toBE_cons, toBE_val _ k (by omega)]
    have : val k / 256 ^ (k.length / 2) = 0 := Nat.div_eq_of_lt (by
      rw [pow256, show 2 * (k.length / 2) = k.length from by omega]; exact val_lt k)
    rw [this]
    simp only [h, if_true, Mpt.hexPrefix, List.modify_zero_cons, List.cons.injEq, and_true]
    cases l <;> decide
  · clear hbuf hmod hc hp
    cases k with
    | nil => exact absurd rfl h
    | cons a k =>
      simp only [List.length_cons] at h hk
      have e : ((a :: k).length + 1 + 1) / 2 = k.length / 2 + 1 := by
        rw [List.length_cons]; omega
      have hk2 : k.length = 2 * (k.length / 2) := by omega
      have hv : val (a :: k) = val ([a] ++ k) := rfl
      have hb : toBE (k.length / 2 + 1) (val (a :: k)) = UInt8.ofNat (a.val % 256) :: Mpt.pack k := by
        rw [toBE_cons, ← toBE_mod (k.length / 2), pow256, ← hk2, hv, val_div, val_mod,
          toBE_val _ k hk2, val_single]
      rw [e, hb]
      have h' : ¬ (k.length + 1) % 2 = 0 := h
      simp only [List.length_cons, h', if_false, Mpt.hexPrefix, List.modify_zero_cons,
        List.cons.injEq, and_true]
      have hall : ∀ (a : Nib) (l : Bool), UInt8.ofNat (a.val % 256) ||| UInt8.ofNat
          ((1 ||| (if l = true then 1 else 0) <<< 1) <<< 4)
          = UInt8.ofNat (16 * ((if l = true then 2 else 0) + 1) + a.val) := by decide
      exact hall a l

theorem or_flag (a : Nib) (f : Fin 16) :
    (UInt8.ofNat (16 * f.val + a.val) &&& 0b11110000) >>> 4 = UInt8.ofNat f.val ∧
    UInt8.ofNat (16 * f.val + a.val) &&& 0b1111 = UInt8.ofNat a.val := by
  revert a f
  decide +kernel

theorem beVal_cons (b : UInt8) (bs : Bytes) :
    Rlp.beVal (b :: bs) = b.toNat * 256 ^ bs.length + Rlp.beVal bs := by
  have := beVal_append [b] bs
  simpa [Rlp.beVal] using this

theorem take_pad (raw : Bytes) (n : Nat) (h : raw.length = n) (m : Nat) :
    (raw ++ List.replicate m 0).take n = raw := by
  rw [List.take_append_of_le_length (by omega), ← h, List.take_length]

theorem fromHexPrefix_cons {b0 : UInt8} {rest : Bytes} (h : rest.length ≤ 32) (f : Fin 16) (a : Nib)
    (hb : b0 = UInt8.ofNat (16 * f.val + a.val)) :
    b0 &&& 0b1111 = UInt8.ofNat a.val ∧
    fromHexPrefix (b0 :: rest) = match f.val with
      | 0 => .ok (readHexPrefix b0 rest false (rest.length * 2))
      | 1 => .ok (readHexPrefix b0 rest false (rest.length * 2 + 1))
      | 2 => .ok (readHexPrefix b0 rest true (rest.length * 2 + 2))
      | 3 => .ok (readHexPrefix b0 rest true (rest.length * 2 + 3))
      | _ => .error .invalidFlags := by
  subst hb
  refine ⟨(or_flag a f).2, ?_⟩
  unfold fromHexPrefix
  rw [if_neg (by simp; omega)]
  simp only [(or_flag a f).1]
  rw [Rlp.toNat_ofNat (by omega)]
  simp only [List.length_cons]
  have e0 : (rest.length + 1) * 2 - 2 = rest.length * 2 := by omega
  have e1 : (rest.length + 1) * 2 - 1 = rest.length * 2 + 1 := by omega
  have e2 : (rest.length + 1) * 2 = rest.length * 2 + 2 := by omega
  have e3 : (rest.length + 1) * 2 + 1 = rest.length * 2 + 3 := by omega
  rw [e0, e1, e3, e2]
  generalize UInt8.ofNat (16 * f.val + a.val) = b
  generalize f.val = n
  rcases n with _ | _ | _ | _ | n <;> rfl

theorem beVal_opt (l : Bool) (x : Bytes) (k : Key) (h : Rlp.beVal x = val k) :
    Rlp.beVal (x ++ if l then [16] else []) = val (k ++ if l then [1, 0] else []) := by
  cases l with
  | false => simpa using h
  | true =>
    simp only [if_true]
    rw [beVal_append, val_append, h]
    rfl

theorem readHexPrefix_even {b0 : UInt8} {l : Bool} {k : Key} (hk : k.length % 2 = 0)
    (hk' : k.length ≤ 64) {count : Nat} (hc : count = k.length + (if l then 2 else 0)) :
    readHexPrefix b0 (Mpt.pack k) l count = rep (k ++ (if l then [1, 0] else [])) := by
  have hk2 : k.length = 2 * (k.length / 2) := by omega
  have hpl := pack_length _ k hk2
  have ht : (Mpt.pack k).take 32 = Mpt.pack k := List.take_of_length_le (by omega)
  have hodd : ¬ count % 2 = 1 := by cases l <;> simp at hc <;> omega
  unfold readHexPrefix rep
  simp only [ht, hodd, if_false, List.nil_append, Nibbles.mk.injEq]
  constructor
  · rw [hc]; cases l <;> simp
  · rw [take_pad _ _ (by cases l <;> simp at hc ⊢ <;> omega), fromBE]
    exact beVal_opt l _ _ (beVal_pack hk2)

theorem readHexPrefix_odd {b0 : UInt8} {l : Bool} {a : Nib} {k : Key} (hk : k.length % 2 = 0)
    (hk' : k.length ≤ 64) (h0 : b0 &&& 0b1111 = UInt8.ofNat a.val) {count : Nat}
    (hc : count = k.length + 1 + (if l then 2 else 0)) :
    readHexPrefix b0 (Mpt.pack k) l count = rep (a :: k ++ (if l then [1, 0] else [])) := by
  have hk2 : k.length = 2 * (k.length / 2) := by omega
  have hpl := pack_length _ k hk2
  have ht : (Mpt.pack k).take 32 = Mpt.pack k := List.take_of_length_le (by omega)
  have hodd : count % 2 = 1 := by cases l <;> simp at hc <;> omega
  unfold readHexPrefix rep
  simp only [ht, h0, hodd, if_true, Nibbles.mk.injEq]
  constructor
  · rw [hc]; cases l <;> simp
  · rw [take_pad _ _ (by cases l <;> simp at hc ⊢ <;> omega), fromBE]
    refine beVal_opt l _ (a :: k) ?_
    rw [List.singleton_append, beVal_cons, beVal_pack hk2, val_cons, hpl, pow256, ← hk2,
      Rlp.toNat_ofNat (by omega)]

theorem fromHexPrefix_hexPrefix {k : Key} (hk : k.length ≤ 64) (l : Bool) :
    fromHexPrefix (Mpt.hexPrefix k l) = .ok (rep (k ++ if l then [1, 0] else [])) := by
  by_cases h : k.length % 2 = 0
  · have hk2 : k.length = 2 * (k.length / 2) := by omega
    have hpl := pack_length _ k hk2
    simp only [Mpt.hexPrefix, h, if_true]
    cases l with
    | false =>
      obtain ⟨h0, h1⟩ := fromHexPrefix_cons (rest := Mpt.pack k) (by omega) 0 0 rfl
      refine h1.trans (congrArg Except.ok ?_)
      exact readHexPrefix_even h hk (by simp; omega)
    | true =>
      obtain ⟨h0, h1⟩ := fromHexPrefix_cons (rest := Mpt.pack k) (by omega) 2 0 rfl
      refine h1.trans (congrArg Except.ok ?_)
      exact readHexPrefix_even h hk (by simp; omega)
  · cases k with
    | nil => exact absurd rfl h
    | cons a k =>
      simp only [List.length_cons] at h hk
      have hk0 : k.length % 2 = 0 := by omega
      have hk2 : k.length = 2 * (k.length / 2) := by omega
      have hpl := pack_length _ k hk2
      have h' : ¬ (a :: k).length % 2 = 0 := by simpa using h
      simp only [Mpt.hexPrefix, h', if_false]
      cases l with
      | false =>
        obtain ⟨h0, h1⟩ := fromHexPrefix_cons (rest := Mpt.pack k) (by omega) 1 a rfl
        refine h1.trans (congrArg Except.ok ?_)
        exact readHexPrefix_odd hk0 (by omega) h0 (by simp; omega)
      | true =>
        obtain ⟨h0, h1⟩ := fromHexPrefix_cons (rest := Mpt.pack k) (by omega) 3 a rfl
        refine h1.trans (congrArg Except.ok ?_)
        exact readHexPrefix_odd hk0 (by omega) h0 (by simp; omega)

/-! ## Text -/

theorem hexEncode_pack (n : Nat) : ∀ k : Key, k.length = 2 * n →
    hexEncode (Mpt.pack k) = k.map (fun d => hexDigit d.val) := by
  induction n with
  | zero =>
    intro k h
    have : k = [] := List.eq_nil_of_length_eq_zero h
    subst this; rfl
  | succ n ih =>
    intro k h
    match k, h with
    | a :: b :: k, h =>
      simp only [List.length_cons] at h
      have := ih k (by omega)
      unfold hexEncode at this ⊢
      rw [Mpt.pack, List.flatMap_cons, this, Rlp.toNat_ofNat (by omega)]
      have h1 : (16 * a.val + b.val) / 16 = a.val := by omega
      have h2 : (16 * a.val + b.val) % 16 = b.val := by omega
      simp [h1, h2]

theorem toHexStr_rep {k : Key} (hk : k.length ≤ 80) :
    toHexStr (rep k) = some ('0' :: 'x' :: k.map (fun d => hexDigit d.val)) := by
  have hc : (rep k).count = k.length := rfl
  have hb := bytesBe_rep hk
  unfold bytesBe at hb
  unfold toHexStr
  have hm : minBytes (rep k) ≤ 40 := by unfold minBytes; rw [hc]; omega
  rw [if_pos hm] at hb ⊢
  simp only [Option.some.injEq] at hb
  rw [hb, hexEncode_pack _ _ (even_length k), hc]
  unfold even
  split <;> simp

theorem hexVal_hexDigit (d : Nib) : hexVal (hexDigit d.val) = some d.val := by
  revert d; decide

theorem hexNum_map (k : Key) (a : Nat) :
    hexNum a (k.map (fun d => hexDigit d.val)) = some (a * 16 ^ k.length + val k) := by
  induction k generalizing a with
  | nil => simp [hexNum]
  | cons d k ih =>
    simp only [List.map_cons, hexNum, hexVal_hexDigit, Option.bind_some]
    rw [ih, val_cons, List.length_cons, Nat.pow_succ, Nat.add_mul, Nat.mul_comm 16 a, Nat.mul_assoc,
      Nat.mul_comm 16, Nat.add_assoc]

theorem numNibbles_spec {x n : Nat} (h1 : 16 ^ n ≤ x) (h2 : x < 16 ^ (n + 1)) :
    numNibbles x = n + 1 := by
  have hx : x ≠ 0 := by
    have : 0 < 16 ^ n := Nat.pow_pos (by omega)
    omega
  unfold numNibbles bits
  rw [if_neg hx]
  rw [pow16] at h1 h2
  have a := (Nat.le_log2 hx).2 h1
  have b := (Nat.log2_lt hx).2 h2
  omega

theorem numNibbles_val {d : Nib} {k : Key} (hd : d ≠ 0) : numNibbles (val (d :: k)) = k.length + 1 := by
  apply numNibbles_spec
  · rw [val_cons]
    have : 0 < d.val := by
      rcases Nat.eq_zero_or_pos d.val with h | h
      · exact absurd (Fin.ext h) hd
      · exact h
    have : 1 * 16 ^ k.length ≤ d.val * 16 ^ k.length := Nat.mul_le_mul_right _ this
    omega
  · have := val_lt (d :: k)
    simpa using this

theorem hexDigit_zero (d : Nib) : (hexDigit d.val == '0') = decide (d = 0) := by
  revert d; decide

theorem leading_spec (k : Key) :
    ((k.map (fun d => hexDigit d.val)).takeWhile (· == '0')).length + numNibbles (val k)
      = k.length := by
  induction k with
  | nil => simp [numNibbles, bits]
  | cons d k ih =>
    simp only [List.map_cons, List.takeWhile_cons, hexDigit_zero]
    by_cases h : d = 0
    · subst h
      simp only [decide_true, if_true, List.length_cons, val_zero_cons]
      omega
    · simp only [h, decide_false, Bool.false_eq_true, if_false, List.length_nil, numNibbles_val h,
        List.length_cons]
      omega

theorem fromStr_toHexStr {k : Key} (hk : k.length ≤ 80) :
    fromStr ('0' :: 'x' :: k.map (fun d => hexDigit d.val)) = some (rep k) := by
  unfold fromStr uintFromStr
  simp only [strip0x, List.length_map]
  rw [if_neg (by omega), hexNum_map]
  simp only [Option.map_some, Nat.zero_mul, Nat.zero_add, leading_spec, rep]

/-! ## Integers -/

theorem ofNat_spec (x : Nat) : ∃ k : Key, ofNat x = rep k ∧ val k = x ∧ k.head? ≠ some 0 := by
  by_cases hx : x = 0
  · subst hx; exact ⟨[], rfl, rfl, by simp⟩
  · obtain ⟨k, h1, h2⟩ := exists_rep (numNibbles x) x (by
      unfold numNibbles bits
      rw [if_neg hx, pow16]
      have := (Nat.lt_log2_self (n := x))
      exact Nat.lt_of_lt_of_le this (Nat.pow_le_pow_right (by omega) (by omega)))
    refine ⟨k, by simp [ofNat, rep, h1, h2, numNibbles], h2, ?_⟩
    cases k with
    | nil => simp at h2; omega
    | cons d k =>
      simp only [List.head?_cons, ne_eq, Option.some.injEq]
      intro hd
      subst hd
      have h3 := val_lt k
      rw [val_zero_cons] at h2
      rw [h2] at h3
      simp only [List.length_cons] at h1
      unfold numNibbles bits at h1
      rw [if_neg hx] at h1
      have h4 := Nat.log2_self_le hx
      have h5 : 2 ^ (k.length * 4) ≤ 2 ^ Nat.log2 x := Nat.pow_le_pow_right (by omega) (by omega)
      rw [pow16] at h3
      omega

end Verif.Nibbles
