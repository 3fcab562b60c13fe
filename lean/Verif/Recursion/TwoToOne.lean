import Verif.Recursion.Claims73

/-!
# Two-to-one aggregation of wrapped block proofs (`evm_arithmetization/src/fixed_recursive_verifier.rs:1808-1893`)

A wrapped proof and a two-to-one proof have the same shape: 25 public inputs followed by a verification key. In a wrapped proof the
25 inputs are the final public values; in a two-to-one proof they are a hash and zeros.
-/
namespace Verif.Recursion

open Verif.Stark (F)

/-- The public inputs: `FinalPublicValuesTarget::SIZE = 25` (`proof.rs:234`) elements and the key. -/
structure TPI where
  pis : Limbs 25
  vk : VK

/-- The final public values in the order in which `add_virtual_final_public_values_public_input` registers them
(`recursive_verifier.rs:656-675`). -/
def FinalPV.toLimbs (f : FinalPV) : Limbs 25 := fun i =>
  if i.val = 0 then f.chainId
  else if h : i.val < 9 then f.checkpointRoot ⟨i - 1, by omega⟩
  else if h : i.val < 17 then f.newRoot ⟨i - 9, by omega⟩
  else if h : i.val < 21 then f.checkpointHash ⟨i - 17, by omega⟩
  else f.newHash ⟨i - 21, by omega⟩

/-- The two circuits, the hash, which final public values are wrapped, and everybody else's circuits. -/
structure TSetup where
  wrapperVK : VK
  twoVK : VK
  hash : List F → Limbs 4
  wrapped : FinalPV → Prop
  foreign : VK → TPI → Prop

/-- `AggregationChildTarget` (`fixed_recursive_verifier.rs:379-383`). -/
structure TChild where
  isAgg : F
  agg : TPI
  base : TPI

/-- `AggregationChildTarget::public_inputs` (`fixed_recursive_verifier.rs:413-423`). -/
def TChild.publicInputs (c : TChild) : Limbs 25 := fun i => sel c.isAgg (c.agg.pis i) (c.base.pis i)

/-- The hash a child stands for (`fixed_recursive_verifier.rs:1849-1872`): its first four public inputs if it is an aggregation, else the
hash of its final public values (`extract_two_to_one_block_hash`, `extract_block_final_public_values`, `3207-3237`). -/
def TChild.hash (T : TSetup) (c : TChild) : Limbs 4 := fun i =>
  sel c.isAgg (c.publicInputs ⟨i, by omega⟩) (T.hash (List.ofFn c.publicInputs) i)

/-- The constraints of `create_two_to_one_block_circuit` (`fixed_recursive_verifier.rs:1818-1893`). -/
structure TwoC (T : TSetup) (pi : TPI) (lhs rhs : TChild) : Prop where
  lhsBit : IsBool lhs.isAgg
  rhsBit : IsBool rhs.isAgg
  padding : ∀ i : Fin 25, 4 ≤ i.val → pi.pis i = 0
  mix : ∀ i : Fin 4, pi.pis ⟨i, by omega⟩ = T.hash (List.ofFn (lhs.hash T) ++ List.ofFn (rhs.hash T)) i

/-- The proofs of this shape that verify under a key. A wrapped proof carries an arbitrary key (`fixed_recursive_verifier.rs:1770-1773`).
`conditionally_verify_cyclic_proof` (plonky2): the aggregated child carries the key of this proof and, if the bit is 1, verifies under it;
if the bit is 0 the base child verifies under the constant key of the wrapper. -/
inductive TValid (T : TSetup) : VK → TPI → Prop
  | wrapper (f : FinalPV) (vk : VK) (h : T.wrapped f) : TValid T T.wrapperVK ⟨f.toLimbs, vk⟩
  | foreign (vk : VK) (pi : TPI) (h : T.foreign vk pi) (h1 : vk ≠ T.wrapperVK) (h2 : vk ≠ T.twoVK) : TValid T vk pi
  | two (pi : TPI) (lhs rhs : TChild) (h : TwoC T pi lhs rhs)
      (hlk : lhs.agg.vk = pi.vk) (hla : lhs.isAgg = 1 → TValid T pi.vk lhs.agg) (hlb : lhs.isAgg = 0 → TValid T T.wrapperVK lhs.base)
      (hrk : rhs.agg.vk = pi.vk) (hra : rhs.isAgg = 1 → TValid T pi.vk rhs.agg) (hrb : rhs.isAgg = 0 → TValid T T.wrapperVK rhs.base) :
      TValid T T.twoVK pi

/-- `verify_two_to_one_block` (`fixed_recursive_verifier.rs:2824-2831`). -/
def TAccepted (T : TSetup) (pi : TPI) : Prop := TValid T T.twoVK pi ∧ pi.vk = T.twoVK

/-! ## Specification -/

/-- How wrapped proofs were put together. -/
inductive Tree where
  | leaf (f : FinalPV)
  | node (l r : Tree)

/-- The final public values of the wrapped proofs, from left to right. -/
def Tree.leaves : Tree → List FinalPV
  | .leaf f => [f]
  | .node l r => l.leaves ++ r.leaves

/-- The Merkle root of the final public values. -/
def Tree.root (hash : List F → Limbs 4) : Tree → Limbs 4
  | .leaf f => hash (List.ofFn f.toLimbs)
  | .node l r => hash (List.ofFn (l.root hash) ++ List.ofFn (r.root hash))

/-- Two different inputs, of the lengths used here, with the same hash. -/
def Collision (hash : List F → Limbs 4) : Prop :=
  ∃ x y : List F, x ≠ y ∧ (x.length = 25 ∨ x.length = 8) ∧ (y.length = 25 ∨ y.length = 8) ∧ hash x = hash y

/-! ## Proofs -/

theorem FinalPV.toLimbs_injective {f g : FinalPV} (h : f.toLimbs = g.toLimbs) : f = g := by
  have k : ∀ i : Fin 25, f.toLimbs i = g.toLimbs i := fun i => congrFun h i
  refine FinalPV.ext ?_ ?_ ?_ ?_ ?_
  · simpa [FinalPV.toLimbs] using k 0
  · funext i
    have := k ⟨i + 1, by omega⟩
    simpa [FinalPV.toLimbs, show i.val + 1 < 9 by omega] using this
  · funext i
    have := k ⟨i + 9, by omega⟩
    simpa [FinalPV.toLimbs, show ¬ i.val + 9 < 9 by omega, show i.val + 9 < 17 by omega] using this
  · funext i
    have := k ⟨i + 17, by omega⟩
    simpa [FinalPV.toLimbs, show ¬ i.val + 17 < 9 by omega, show ¬ i.val + 17 < 17 by omega, show i.val + 17 < 21 by omega] using this
  · funext i
    have := k ⟨i + 21, by omega⟩
    simpa [FinalPV.toLimbs, show ¬ i.val + 21 < 9 by omega, show ¬ i.val + 21 < 17 by omega, show ¬ i.val + 21 < 21 by omega] using this

/-- What a valid proof stands for. -/
structure TMeaning (T : TSetup) (vk : VK) (pi : TPI) : Prop where
  wrapper : vk = T.wrapperVK → ∃ f, T.wrapped f ∧ pi.pis = f.toLimbs
  two : vk = T.twoVK → pi.vk = T.twoVK → ∃ l r : Tree, (∀ f ∈ (Tree.node l r).leaves, T.wrapped f) ∧
    (∀ i : Fin 4, pi.pis ⟨i, by omega⟩ = (Tree.node l r).root T.hash i)

theorem TChild.meaning {T : TSetup} {vk : VK} {c : TChild} (hb : IsBool c.isAgg) (hvk : vk = T.twoVK) (hk : c.agg.vk = vk)
    (ha : c.isAgg = 1 → TMeaning T vk c.agg) (hw : c.isAgg = 0 → TMeaning T T.wrapperVK c.base) :
    ∃ t : Tree, (∀ f ∈ t.leaves, T.wrapped f) ∧ c.hash T = t.root T.hash := by
  rcases hb with h0 | h1
  · obtain ⟨f, hf, he⟩ := (hw h0).wrapper rfl
    refine ⟨.leaf f, by simpa [Tree.leaves] using hf, funext fun i => ?_⟩
    have : c.publicInputs = f.toLimbs := by funext j; rw [TChild.publicInputs, h0, sel_zero, he]
    rw [TChild.hash, h0, sel_zero, this, Tree.root]
  · obtain ⟨l, r, hl, he⟩ := (ha h1).two hvk (hk.trans hvk)
    refine ⟨.node l r, hl, funext fun i => ?_⟩
    rw [TChild.hash, h1, sel_one, TChild.publicInputs, h1, sel_one, he]

theorem TValid.meaning {T : TSetup} (hT : T.wrapperVK ≠ T.twoVK) {vk : VK} {pi : TPI} (h : TValid T vk pi) : TMeaning T vk pi := by
  induction h with
  | wrapper f vk h => exact ⟨fun _ => ⟨f, h, rfl⟩, fun k => absurd k hT⟩
  | foreign vk pi h h1 h2 => exact ⟨fun k => absurd k h1, fun k => absurd k h2⟩
  | two pi lhs rhs h hlk hla hlb hrk hra hrb ila ilb ira irb =>
    refine ⟨fun k => absurd k.symm hT, fun _ hv => ?_⟩
    obtain ⟨l, hl, el⟩ := TChild.meaning h.lhsBit hv hlk ila ilb
    obtain ⟨r, hr, er⟩ := TChild.meaning h.rhsBit hv hrk ira irb
    refine ⟨l, r, ?_, fun i => ?_⟩
    · intro f hf
      rcases List.mem_append.1 hf with hf | hf
      · exact hl f hf
      · exact hr f hf
    · rw [h.mix, el, er, Tree.root]

/-- Equal roots come from equal trees, or there is a collision. -/
theorem Tree.root_binding (hash : List F → Limbs 4) (t : Tree) : ∀ t' : Tree, t.root hash = t'.root hash → t = t' ∨ Collision hash := by
  induction t with
  | leaf f =>
    intro t' h
    cases t' with
    | leaf g =>
      by_cases e : f = g
      · exact Or.inl (by rw [e])
      · exact Or.inr ⟨_, _, fun k => e (FinalPV.toLimbs_injective (List.ofFn_injective k)), Or.inl (List.length_ofFn), Or.inl (List.length_ofFn), h⟩
    | node l r =>
      refine Or.inr ⟨_, _, fun k => ?_, Or.inl (List.length_ofFn), Or.inr ?_, h⟩
      · have := congrArg List.length k
        simp [List.length_ofFn] at this
      · simp
  | node l r ihl ihr =>
    intro t' h
    cases t' with
    | leaf f =>
      refine Or.inr ⟨_, _, fun k => ?_, Or.inr ?_, Or.inl (List.length_ofFn), h⟩
      · have := congrArg List.length k
        simp [List.length_ofFn] at this
      · simp
    | node l' r' =>
      by_cases e : List.ofFn (l.root hash) ++ List.ofFn (r.root hash) = List.ofFn (l'.root hash) ++ List.ofFn (r'.root hash)
      · have := List.append_inj e (by simp)
        rcases ihl l' (List.ofFn_injective this.1) with h1 | h1
        · rcases ihr r' (List.ofFn_injective this.2) with h2 | h2
          · exact Or.inl (by rw [h1, h2])
          · exact Or.inr h2
        · exact Or.inr h1
      · exact Or.inr ⟨_, _, e, Or.inr (by simp), Or.inr (by simp), h⟩

/-! ## `prove_two_to_one_block` (`fixed_recursive_verifier.rs:2782-2813`) -/

/-- The public inputs of a proof for a tree. -/
def Tree.pi (T : TSetup) : Tree → TPI
  | .leaf f => ⟨f.toLimbs, T.wrapperVK⟩
  | .node l r => ⟨fun i => if h : i.val < 4 then (Tree.node l r).root T.hash ⟨i, h⟩ else 0, T.twoVK⟩

/-- `set_dummy_if_necessary` (`fixed_recursive_verifier.rs:2877-2896`): a base proof comes with a dummy carrying the key. -/
def Tree.child (T : TSetup) : Tree → TChild
  | .leaf f => ⟨0, ⟨fun _ => 0, T.twoVK⟩, (Tree.leaf f).pi T⟩
  | .node l r => ⟨1, (Tree.node l r).pi T, (Tree.node l r).pi T⟩

theorem Tree.child_hash (T : TSetup) (t : Tree) : (t.child T).hash T = t.root T.hash := by
  funext i
  cases t with
  | leaf f =>
    have : ((Tree.leaf f).child T).publicInputs = f.toLimbs := by funext j; simp [TChild.publicInputs, Tree.child, sel, Tree.pi]
    rw [TChild.hash, this]; simp [Tree.child, sel, Tree.root]
  | node l r => simp [TChild.hash, TChild.publicInputs, Tree.child, sel, Tree.pi]

theorem Tree.provable (T : TSetup) : ∀ t : Tree, (∀ f ∈ t.leaves, T.wrapped f) →
    match t with
    | .leaf f => TValid T T.wrapperVK ((Tree.leaf f).pi T)
    | .node l r => TAccepted T ((Tree.node l r).pi T) := by
  intro t
  induction t with
  | leaf f => intro h; exact .wrapper f _ (h f (by simp [Tree.leaves]))
  | node l r ihl ihr =>
    intro h
    have hl := ihl fun f hf => h f (List.mem_append_left _ hf)
    have hr := ihr fun f hf => h f (List.mem_append_right _ hf)
    refine ⟨.two _ (l.child T) (r.child T) ⟨?_, ?_, ?_, ?_⟩ ?_ ?_ ?_ ?_ ?_ ?_, rfl⟩
    · cases l <;> simp [Tree.child, IsBool]
    · cases r <;> simp [Tree.child, IsBool]
    · intro i hi
      simp [Tree.pi, Nat.not_lt.2 hi]
    · intro i
      rw [Tree.child_hash, Tree.child_hash]
      simp [Tree.pi, Tree.root]
    · cases l <;> rfl
    · cases l with
      | leaf f => intro k; simp [Tree.child] at k
      | node a b => intro _; exact hl.1
    · cases l with
      | leaf f => intro _; exact hl
      | node a b => intro k; simp [Tree.child] at k
    · cases r <;> rfl
    · cases r with
      | leaf f => intro k; simp [Tree.child] at k
      | node a b => intro _; exact hr.1
    · cases r with
      | leaf f => intro _; exact hr
      | node a b => intro k; simp [Tree.child] at k

/-! ## C77 -/

/-- The hash an accepted two-to-one proof shows is the Merkle root of the final public values of at least two wrapped proofs. -/
theorem C77_root_of_wrapped (T : TSetup) (hT : T.wrapperVK ≠ T.twoVK) (pi : TPI) (h : TAccepted T pi) :
    ∃ l r : Tree, (∀ f ∈ (Tree.node l r).leaves, T.wrapped f) ∧ ∀ i : Fin 4, pi.pis ⟨i, by omega⟩ = (Tree.node l r).root T.hash i :=
  (h.1.meaning hT).two rfl h.2

/-- Two trees with the same root are the same tree, or a collision of the hash is at hand. -/
theorem C77_binding (hash : List F → Limbs 4) (t t' : Tree) (h : t.root hash = t'.root hash) : t = t' ∨ Collision hash :=
  Tree.root_binding hash t t' h

/-- Any two or more wrapped proofs can be aggregated, in any shape. -/
theorem C77_complete (T : TSetup) (l r : Tree) (h : ∀ f ∈ (Tree.node l r).leaves, T.wrapped f) :
    TAccepted T ((Tree.node l r).pi T) := Tree.provable T (.node l r) h

/-- Three wrapped proofs of demo chains, put together on the left first. -/
example : ∃ (T : TSetup) (pi : TPI) (f : FinalPV), T.wrapperVK ≠ T.twoVK ∧ T.wrapped = WrapperValid (demo (fun _ => True) true) false ∧
    T.wrapped f ∧ TAccepted T pi ∧ ∀ i : Fin 4, pi.pis ⟨i, by omega⟩ = (Tree.node (.node (.leaf f) (.leaf f)) (.leaf f)).root T.hash i := by
  let T : TSetup := ⟨fun _ => 4, fun _ => 5, fun l _ => l.sum, WrapperValid (demo (fun _ => True) true) false, fun _ _ => True⟩
  obtain ⟨f, hf⟩ : ∃ f, WrapperValid (demo (fun _ => True) true) false f := ⟨_, proveWrapper (demo_chain (segment := fun _ => True) (cdk := true) (owned := false) 1 1 demoHash trivial trivial trivial trivial) rfl⟩
  refine ⟨T, _, f, const_ne (a := 4) (b := 5) (by decide), rfl, hf, C77_complete T (.node (.leaf f) (.leaf f)) (.leaf f) ?_, ?_⟩
  · intro g hg
    simp only [Tree.leaves, List.cons_append, List.nil_append, List.mem_cons, List.not_mem_nil, or_false, or_self] at hg
    rw [hg]; exact hf
  · intro i
    simp [Tree.pi]

end Verif.Recursion
