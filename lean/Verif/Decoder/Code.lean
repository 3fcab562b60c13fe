import Verif.Decoder.Counters
/-!
# C29: contract code is found under its own hash
-/
namespace Verif.Decoder
open Mpt (Key Bytes Node H256)
open World

/-- Every entry of the code table sits under the hash of its code. -/
def Keyed (hash : Bytes → H256) (m : Hash2Code) : Prop := ∀ h c, m h = some c → hash c = h

theorem Keyed.insert {hash m} (h : Keyed hash m) (c : Bytes) : Keyed hash (m.insert hash c) := by
  intro k c' hk
  unfold Hash2Code.insert at hk
  split at hk
  · rename_i he; cases hk; exact he.symm
  · exact h k c' hk

theorem Keyed.extend {hash m} (h : Keyed hash m) (l : List Bytes) : Keyed hash (m.extend hash l) := by
  unfold Hash2Code.extend
  induction l generalizing m with
  | nil => exact h
  | cons c l ih => exact ih (h.insert c)

theorem Keyed.new (hash) : Keyed hash (Hash2Code.new hash) := by
  intro k c hk
  unfold Hash2Code.new Hash2Code.insert at hk
  split at hk
  · rename_i he; cases hk; exact he.symm
  · cases hk

theorem extend_mem (hash) (m : Hash2Code) (l : List Bytes) (h : H256) :
    (h ∉ l.map hash → m.extend hash l h = m h) ∧
    (h ∈ l.map hash → ∃ c ∈ l, hash c = h ∧ m.extend hash l h = some c) := by
  induction l generalizing m with
  | nil => exact ⟨fun _ => rfl, by simp⟩
  | cons c l ih =>
    have he : m.extend hash (c :: l) = (m.insert hash c).extend hash l := rfl
    rw [he]
    obtain ⟨i1, i2⟩ := ih (m.insert hash c)
    by_cases hl : h ∈ l.map hash
    · refine ⟨fun hn => absurd (by simp at hl ⊢; exact .inr hl) hn, fun _ => ?_⟩
      obtain ⟨c', hc', e1, e2⟩ := i2 hl
      exact ⟨c', by simp [hc'], e1, e2⟩
    · rw [i1 hl]
      unfold Hash2Code.insert
      refine ⟨fun hn => ?_, fun hm => ?_⟩
      · rw [if_neg]
        rintro rfl; exact hn (by simp)
      · have : h = hash c := by
          rw [List.map_cons] at hm
          exact (List.mem_cons.1 hm).resolve_right hl
        exact ⟨c, by simp, this.symm, by rw [if_pos this]⟩

/-- **C29**, the table. After loading any code base, then any further codes: a lookup that succeeds
returns code with the hash that was asked for; the hash of any loaded code (and of the empty code) is
found, and gives that very code if no other loaded code has the same hash; any other hash is absent. -/
theorem C29_code_table (hash : Bytes → H256) (db more : List Bytes) :
    let m := (Hash2Code.fromIter hash db).extend hash more
    (∀ h c, m h = some c → hash c = h) ∧
    (∀ c ∈ [] :: (db ++ more), (∀ c' ∈ [] :: (db ++ more), hash c' = hash c → c' = c) →
      m (hash c) = some c) ∧
    (∀ h, (∀ c ∈ [] :: (db ++ more), hash c ≠ h) → m h = none) := by
  have hm : (Hash2Code.fromIter hash db).extend hash more =
      Hash2Code.extend hash (fun _ => none) ([] :: (db ++ more)) := by
    simp [Hash2Code.fromIter, Hash2Code.extend, Hash2Code.new, List.foldl_append]
  refine ⟨((Keyed.new hash).extend db).extend more, fun c hc hu => ?_, fun h hn => ?_⟩
  · rw [hm]
    obtain ⟨c', hc', e1, e2⟩ := (extend_mem hash (fun _ => none) _ (hash c)).2 (List.mem_map.2 ⟨c, hc, rfl⟩)
    rw [e2, hu c' hc' e1]
  · rw [hm, (extend_mem hash (fun _ => none) _ h).1]
    intro hmem
    obtain ⟨c, hc, rfl⟩ := List.mem_map.1 hmem
    exact hn c hc rfl

section
variable {W P : Type} {I : Ops W P} {env : Env}

/-- What a trace needs in the list of supplied code. -/
def Supplied (I : Ops W P) (u : Option CodeUsage) (cc : List Bytes) : Prop :=
  match u with
  | none => True
  | some (.read h) => ∃ c ∈ cc, I.codeHash c = h
  | some (.write b) => b ∈ cc

theorem Supplied.mono {u : Option CodeUsage} {cc cc' : List Bytes} (h : Supplied I u cc) (hs : cc ⊆ cc') :
    Supplied I u cc' := by
  match u with
  | none => trivial
  | some (.read _) => obtain ⟨c, hc, e⟩ := h; exact ⟨c, hs hc, e⟩
  | some (.write _) => exact hs h

theorem useCode_code {a : Addr} {w : W} {code : Hash2Code} {cc : List Bytes} {u : Option CodeUsage}
    {w' : W} {code' : Hash2Code} {cc' : List Bytes} (hf : env.fatalMissingCode = true)
    (hk : Keyed I.codeHash code) (h : useCode I env a w code cc u = .ok (w', code', cc')) :
    Keyed I.codeHash code' ∧ cc ⊆ cc' ∧ Supplied I u cc' := by
  match u with
  | none => cases h; exact ⟨hk, fun _ h => h, trivial⟩
  | some (.read x) =>
    unfold useCode at h
    dsimp only at h
    split at h
    · rw [if_pos hf] at h; cases h
    · rename_i b hb
      obtain ⟨y, h1, h⟩ := bind_ok.1 h
      cases h
      exact ⟨hk, List.subset_append_left _ _, b, by simp, hk x b hb⟩
  | some (.write x) =>
    unfold useCode at h
    dsimp only at h
    obtain ⟨y, h1, h⟩ := bind_ok.1 h
    cases h
    exact ⟨hk.insert x, List.subset_append_left _ _, by simp [Supplied]⟩

theorem applyTrace_code {rc : Bytes} {a : Addr} {t : Trace} {st st' : W × Hash2Code}
    {loc loc' : Loc P} (hf : env.fatalMissingCode = true) (hk : Keyed I.codeHash st.2)
    (h : applyTrace I env rc a t st loc = .ok (st', loc')) :
    Keyed I.codeHash st'.2 ∧ loc.contractCode ⊆ loc'.contractCode ∧
      ((env.mapReceipt rc >>= env.status) = .ok true → Supplied I t.codeUsage loc'.contractCode) := by
  unfold applyTrace at h
  obtain ⟨m, hm, h⟩ := bind_ok.1 h
  obtain ⟨status, hs, h⟩ := bind_ok.1 h
  obtain ⟨⟨w, born⟩, h1, h⟩ := bind_ok.1 h
  obtain ⟨⟨w1, code, cc, ks⟩, h2, h⟩ := bind_ok.1 h
  obtain ⟨⟨w2, p⟩, h3, h⟩ := bind_ok.1 h
  cases h
  unfold writePhase at h2
  split at h2
  · unfold doWrites at h2
    obtain ⟨wa, _, h2⟩ := bind_ok.1 h2
    obtain ⟨wb, _, h2⟩ := bind_ok.1 h2
    obtain ⟨⟨wc, code', cc'⟩, hu, h2⟩ := bind_ok.1 h2
    obtain ⟨⟨wd, ks'⟩, _, h2⟩ := bind_ok.1 h2
    cases h2
    obtain ⟨k1, k2, k3⟩ := useCode_code hf hk hu
    exact ⟨k1, k2, fun _ => k3⟩
  · rename_i hw
    cases h2
    refine ⟨hk, fun _ h => h, fun hok => ?_⟩
    have : status = true := by
      have h5 := bind_ok.2 ⟨m, hm, hs⟩
      rw [hok] at h5; cases h5; rfl
    subst this
    have ht : t = {} := by
      apply Classical.byContradiction
      intro hne; simp [hne] at hw
    subst ht
    exact trivial

theorem applyTraces_code {rc : Bytes} {l : List (Addr × Trace)} {st st' : W × Hash2Code}
    {loc loc' : Loc P} (hf : env.fatalMissingCode = true) (hk : Keyed I.codeHash st.2)
    (h : applyTraces I env rc l st loc = .ok (st', loc')) :
    Keyed I.codeHash st'.2 ∧ loc.contractCode ⊆ loc'.contractCode ∧
      ((env.mapReceipt rc >>= env.status) = .ok true →
        ∀ x ∈ l, Supplied I x.2.codeUsage loc'.contractCode) := by
  induction l generalizing st loc with
  | nil => cases h; exact ⟨hk, fun _ h => h, by simp⟩
  | cons x l ih =>
    obtain ⟨a, t⟩ := x
    unfold applyTraces at h
    obtain ⟨⟨st1, loc1⟩, h1, h⟩ := bind_ok.1 h
    obtain ⟨a1, a2, a3⟩ := applyTrace_code hf hk h1
    obtain ⟨b1, b2, b3⟩ := ih a1 h
    refine ⟨b1, fun _ hx => b2 (a2 hx), fun hs y hy => ?_⟩
    rcases List.mem_cons.1 hy with rfl | hy
    · exact (a3 hs).mono b2
    · exact b3 hs y hy

theorem applyTxns_code {l : List (Option Txn)} {st st' : St W} {loc loc' : Loc P}
    (hf : env.fatalMissingCode = true) (hk : Keyed I.codeHash st.code)
    (h : applyTxns I env l st loc = .ok (st', loc')) :
    Keyed I.codeHash st'.code ∧ loc.contractCode ⊆ loc'.contractCode ∧
      (∀ t, some t ∈ l → (env.mapReceipt t.receipt >>= env.status) = .ok true →
        ∀ x ∈ t.traces, Supplied I x.2.codeUsage loc'.contractCode) := by
  induction l generalizing st loc with
  | nil => cases h; exact ⟨hk, fun _ h => h, by simp⟩
  | cons t l ih =>
    unfold applyTxns at h
    obtain ⟨⟨st1, loc1⟩, h1, h⟩ := bind_ok.1 h
    unfold applyTxn at h1
    obtain ⟨⟨tt, rt, bc⟩, -, h1⟩ := bind_ok.1 h1
    obtain ⟨⟨⟨w, code⟩, loc2⟩, h2, h1⟩ := bind_ok.1 h1
    cases h1
    obtain ⟨a1, a2, a3⟩ := applyTraces_code hf hk h2
    obtain ⟨b1, b2, b3⟩ := ih a1 h
    refine ⟨b1, fun _ hx => b2 (a2 hx), fun u hu hs x hx => ?_⟩
    rcases List.mem_cons.1 hu with rfl | hu
    · exact (a3 hs x hx).mono b2
    · exact b3 u hu hs x hx

theorem runBatches_code {pre : Hook W P} {n : Nat} {bs : List (List (Option Txn))} {st st2 : St W}
    {out : List (Batch W)} (hf : env.fatalMissingCode = true) (hk : Keyed I.codeHash st.code)
    (h : runBatches I env pre n bs st = .ok (st2, out)) (g : Nat) (j : Nat) (b : List (Option Txn))
    (i : GenInput W) (hb : bs[j]? = some b) (hi : (toInputs I g out)[j]? = some i) :
    (∃ cc, i.contractCode = cc.map (fun c => (I.codeHash c, c)) ∧
      ∀ t, some t ∈ b → (env.mapReceipt t.receipt >>= env.status) = .ok true →
        ∀ x ∈ t.traces, Supplied I x.2.codeUsage cc) := by
  induction bs generalizing st out g j with
  | nil => simp at hb
  | cons b0 bs ih =>
    obtain ⟨st1, o, os, rfl, h1, h2⟩ := runBatches_cons h
    obtain ⟨r⟩ := runBatch_inv h1
    obtain ⟨c1, c2, c3⟩ := applyTxns_code (st := { st with world := r.w0 }) hf hk r.txns
    cases j with
    | zero =>
      simp only [toInputs, List.getElem?_cons_zero, Option.some.injEq] at hb hi
      subst hb hi
      exact ⟨o.contractCode, rfl, by rw [r.o_code]; exact c3⟩
    | succ j =>
      simp only [toInputs, List.getElem?_cons_succ] at hb hi
      exact ih (by rw [r.st2_eq]; exact c1) h2 _ j hb hi

/-- **C29**, the inputs. When missing code is an error, then in every proof input the code supplied is
listed under its own hash, and it contains, for every trace of a successful transaction of that input,
the code whose hash the trace reads and the code the trace deploys. -/
theorem C29_code_supplied {chain : Chain} {blk : Block} {ger : Option (H256 × H256)} {world : W}
    {codes db : List Bytes} {txns : List Txn} {hint : Nat}
    {wds : List (Addr × U256)} {is : List (GenInput W)} (hf : env.fatalMissingCode = true)
    (h : entrypoint I env chain blk ger world (Hash2Code.fromIter I.codeHash codes) db txns hint wds
      = .ok is) (j : Nat) (i : GenInput W) (hi : is[j]? = some i) :
    (∀ x ∈ i.contractCode, x.1 = I.codeHash x.2) ∧
    ∃ b, (batch txns hint)[j]? = some b ∧
      ∀ t, some t ∈ b → (env.mapReceipt t.receipt >>= env.status) = .ok true →
      ∀ x ∈ t.traces,
        (∀ hsh, x.2.codeUsage = some (.read hsh) → ∃ c, (hsh, c) ∈ i.contractCode) ∧
        (∀ c, x.2.codeUsage = some (.write c) → (I.codeHash c, c) ∈ i.contractCode) := by
  obtain ⟨-, ws, st2, out, h1, h2, rfl⟩ := entrypoint_inv h
  have hlen := (runBatches_counted h2 0).length
  have hj : j < (batch txns hint).length := by
    rw [← hlen]; exact (List.getElem?_eq_some_iff.1 hi).1
  obtain ⟨cc, e1, e2⟩ := runBatches_code (I := I) hf
    (((Keyed.new I.codeHash).extend codes).extend db) h2 0 j _ i (List.getElem?_eq_getElem hj) hi
  rw [e1]
  refine ⟨by simp, _, List.getElem?_eq_getElem hj, fun t ht hs x hx => ⟨fun q hq => ?_, fun c hc => ?_⟩⟩
  · have := e2 t ht hs x hx
    rw [hq] at this
    obtain ⟨c, hc, hcq⟩ := this
    exact ⟨c, List.mem_map.2 ⟨c, hc, by rw [hcq]⟩⟩
  · have := e2 t ht hs x hx
    rw [hc] at this
    exact List.mem_map.2 ⟨c, this, rfl⟩

end

/-- Non-vacuity: with missing code tolerated or not, a block that deploys code, then reads it. -/
example : givesOk ((entrypoint toy toyEnv .polygonPos ⟨1, 1, ⟨List.replicate 32 0, rfl⟩⟩ none 5
    (Hash2Code.fromIter toy.codeHash []) [] [
      { byteCode := [1], traces := [([5], { codeUsage := some (.write [9, 9]) })] },
      { byteCode := [2], traces := [([5], { codeUsage := some (.read ⟨List.replicate 32 0, rfl⟩) })] }]
    1 []).map (·.map (fun i => i.contractCode.map (·.2)))) [[[], [9, 9]], [[], [9, 9]]] = true := by
  have : batch [
      { byteCode := [1], traces := [([5], { codeUsage := some (.write [9, 9]) })] },
      { byteCode := [2], traces := [([5], { codeUsage := some (.read ⟨List.replicate 32 0, rfl⟩) })] }] 1
      = [[some { byteCode := [1], traces := [([5], { codeUsage := some (.write [9, 9]) })] }],
         [some { byteCode := [2], traces := [([5],
            { codeUsage := some (.read ⟨List.replicate 32 0, rfl⟩) })] }]] := by
    simp [batch, chunks]
  unfold entrypoint
  rw [this]
  decide +kernel

end Verif.Decoder
