import Verif.Rlp.Model
/-! RLP items are uniquely decodable. -/
namespace Verif.Rlp

theorem beVal_append (a b : Bytes) : beVal (a ++ b) = beVal a * 256 ^ b.length + beVal b := by
  unfold beVal
  rw [List.foldl_append]
  generalize List.foldl (fun a b => a * 256 + b.toNat) 0 a = x
  have : ∀ (b : Bytes) (x y : Nat), List.foldl (fun a b => a * 256 + b.toNat) (x + y) b
      = x * 256 ^ b.length + List.foldl (fun a b => a * 256 + b.toNat) y b := by
    intro b
    induction b with
    | nil => simp
    | cons c cs ih =>
      intro x y
      simp only [List.foldl_cons, List.length_cons]
      have : (x + y) * 256 + c.toNat = x * 256 + (y * 256 + c.toNat) := by omega
      rw [this, ih, Nat.pow_succ]
      congr 1
      rw [Nat.mul_assoc, Nat.mul_comm 256]
  simpa using this b x 0

theorem beVal_beBytes (n : Nat) : beVal (beBytes n) = n := by
  induction n using beBytes.induct with
  | case1 => simp [beBytes, beVal]
  | case2 n h ih =>
    rw [beBytes]
    simp only [h, dite_false]
    rw [beVal_append, ih]
    simp [beVal]
    omega

theorem beBytes_length_le (n k : Nat) (h : n < 256 ^ k) : (beBytes n).length ≤ k := by
  induction k generalizing n with
  | zero =>
    have : n = 0 := by simpa using h
    subst this; simp [beBytes]
  | succ k ih =>
    rw [beBytes]
    split
    · simp
    · have : n / 256 < 256 ^ k := by
        rw [Nat.div_lt_iff_lt_mul (by omega)]
        rwa [Nat.pow_succ] at h
      have := ih _ this
      simp; omega

theorem beBytes_pos (n : Nat) (h : 0 < n) : 0 < (beBytes n).length := by
  rw [beBytes]
  have : ¬ n = 0 := by omega
  simp [this]

theorem toNat_ofNat {n : Nat} (h : n < 256) : (UInt8.ofNat n).toNat = n := by
  simp [UInt8.toNat_ofNat']; omega

/-- Payload sizes the encoding supports (every Rust `Vec` is smaller). -/
def SizeOk (s : Bytes) : Prop := s.length < 256 ^ 8

theorem split_header_str (s x : Bytes) (hs : SizeOk s) :
    split (header 0x80 s.length ++ s ++ x) = some (false, s, x) := by
  unfold header
  split
  · rename_i h
    have ht := toNat_ofNat (n := 0x80 + s.length) (by omega)
    simp only [List.cons_append, List.nil_append, Rlp.split, ht]
    have h1 : ¬ 0x80 + s.length < 0x80 := by omega
    have h2 : 0x80 + s.length < 0xb8 := by omega
    have h3 : 0x80 + s.length - 0x80 = s.length := by omega
    simp [h1, h2, h3]
  · rename_i h
    have hl := beBytes_length_le s.length 8 hs
    have hp := beBytes_pos s.length (by omega)
    have ht := toNat_ofNat (n := 0x80 + 55 + (beBytes s.length).length) (by omega)
    simp only [List.cons_append, Rlp.split, ht]
    have h1 : ¬ 0x80 + 55 + (beBytes s.length).length < 0x80 := by omega
    have h2 : ¬ 0x80 + 55 + (beBytes s.length).length < 0xb8 := by omega
    have h2' : 0x80 + 55 + (beBytes s.length).length < 0xc0 := by omega
    have h3 : 0x80 + 55 + (beBytes s.length).length - 0xb7 = (beBytes s.length).length := by omega
    simp only [h1, h2, h2', h3, if_false, if_true]
    simp [List.append_assoc, beVal_beBytes]

theorem split_header_list (s x : Bytes) (hs : SizeOk s) :
    split (header 0xc0 s.length ++ s ++ x) = some (true, s, x) := by
  unfold header
  split
  · rename_i h
    have ht := toNat_ofNat (n := 0xc0 + s.length) (by omega)
    simp only [List.cons_append, List.nil_append, Rlp.split, ht]
    have h1 : ¬ 0xc0 + s.length < 0x80 := by omega
    have h2 : ¬ 0xc0 + s.length < 0xb8 := by omega
    have h3 : ¬ 0xc0 + s.length < 0xc0 := by omega
    have h4 : 0xc0 + s.length < 0xf8 := by omega
    have h5 : 0xc0 + s.length - 0xc0 = s.length := by omega
    simp [h1, h2, h3, h4, h5]
  · rename_i h
    have hl := beBytes_length_le s.length 8 hs
    have hp := beBytes_pos s.length (by omega)
    have ht := toNat_ofNat (n := 0xc0 + 55 + (beBytes s.length).length) (by omega)
    simp only [List.cons_append, Rlp.split, ht]
    have h1 : ¬ 0xc0 + 55 + (beBytes s.length).length < 0x80 := by omega
    have h2 : ¬ 0xc0 + 55 + (beBytes s.length).length < 0xb8 := by omega
    have h2' : ¬ 0xc0 + 55 + (beBytes s.length).length < 0xc0 := by omega
    have h2'' : ¬ 0xc0 + 55 + (beBytes s.length).length < 0xf8 := by omega
    have h3 : 0xc0 + 55 + (beBytes s.length).length - 0xf7 = (beBytes s.length).length := by omega
    simp only [h1, h2, h2', h2'', h3, if_false]
    simp [List.append_assoc, beVal_beBytes]

theorem split_str (s x : Bytes) (hs : SizeOk s) : split (str s ++ x) = some (false, s, x) := by
  unfold str
  split
  · split
    · rename_i b h
      simp [Rlp.split, h]
    · exact split_header_str _ x hs
  · exact split_header_str _ x hs

theorem split_listOf (s x : Bytes) (hs : SizeOk s) :
    split (listOf s ++ x) = some (true, s, x) := split_header_list s x hs

/-- An encoded item: a byte string or a list. -/
inductive Item : Bytes → Prop
  | str (s) (h : SizeOk s) : Item (str s)
  | list (p) (h : SizeOk p) : Item (listOf p)

theorem Item.split {e : Bytes} (h : Item e) : ∃ b p, ∀ x, Rlp.split (e ++ x) = some (b, p, x) := by
  cases h with
  | str s h => exact ⟨false, s, fun x => split_str s x h⟩
  | list p h => exact ⟨true, p, fun x => split_listOf p x h⟩

/-- Items are self-delimiting. -/
theorem Item.append_inj {e e' x x' : Bytes} (h : Item e) (h' : Item e') (he : e ++ x = e' ++ x') :
    e = e' ∧ x = x' := by
  obtain ⟨b, p, hs⟩ := h.split
  obtain ⟨b', p', hs'⟩ := h'.split
  have h1 := hs x
  rw [he, hs' x'] at h1
  simp only [Option.some.injEq, Prod.mk.injEq] at h1
  have hx : x = x' := h1.2.2.symm
  subst hx
  exact ⟨List.append_cancel_right he, rfl⟩

theorem Item.ne_nil {e : Bytes} (h : Item e) : e ≠ [] := by
  intro h0
  obtain ⟨b, p, hs⟩ := h.split
  have := hs []
  rw [h0] at this
  simp [Rlp.split] at this

theorem items_inj {l l' : List Bytes} (h : ∀ e ∈ l, Item e) (h' : ∀ e ∈ l', Item e)
    (he : l.flatten = l'.flatten) : l = l' := by
  induction l generalizing l' with
  | nil =>
    cases l' with
    | nil => rfl
    | cons a l' =>
      have := (h' a (by simp)).ne_nil
      simp at he
      exact absurd he.1 this
  | cons a l ih =>
    cases l' with
    | nil =>
      have := (h a (by simp)).ne_nil
      simp at he
      exact absurd he.1 this
    | cons b l' =>
      simp only [List.flatten_cons] at he
      obtain ⟨rfl, h2⟩ := (h a (by simp)).append_inj (h' b (by simp)) he
      rw [ih (fun e he => h e (by simp [he])) (fun e he => h' e (by simp [he])) h2]

theorem str_inj {s s' : Bytes} (h : SizeOk s) (h' : SizeOk s') (he : str s = str s') : s = s' := by
  have h1 := split_str s [] h
  rw [he, split_str s' [] h'] at h1
  simpa using h1.symm

theorem listOf_inj {s s' : Bytes} (h : SizeOk s) (h' : SizeOk s') (he : listOf s = listOf s') :
    s = s' := by
  have h1 := split_listOf s [] h
  rw [he, split_listOf s' [] h'] at h1
  simpa using h1.symm

theorem str_ne_listOf {s s' : Bytes} (h : SizeOk s) (h' : SizeOk s') : str s ≠ listOf s' := by
  intro he
  have h1 := split_str s [] h
  rw [he, split_listOf s' [] h'] at h1
  simp at h1

end Verif.Rlp
