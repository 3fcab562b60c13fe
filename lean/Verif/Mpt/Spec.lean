import Verif.Mpt.Model
/-!
# Specification of the trie: a finite map from keys to entries

Nothing here mentions the algorithms of the model; only the shape of the data.
-/
namespace Verif.Mpt

/-- The map a trie denotes: the entry stored under *exactly* this key. -/
def lookup : Node → Key → Option Entry
  | .empty, _ => none
  | .hash h, k => if k = [] then some (.hash h) else none
  | .branch c v, k =>
    match k with
    | [] => if v = [] then none else some (.val v)
    | n :: k => lookup (c n) k
  | .ext n c, k => if n <+: k then lookup c (k.drop n.length) else none
  | .leaf n v, k => if k = n then some (.val v) else none

/-- No key of the set is a proper prefix of another one. Fixed-length keys are an instance. -/
def PrefixFree (K : Key → Prop) : Prop :=
  ∀ a b, K a → K b → a <+: b → a = b

/-- An operation of a history. -/
inductive Op where
  | ins (k : Key) (v : Bytes)
  | del (k : Key)
deriving DecidableEq

/-- The key of an operation. -/
def Op.key : Op → Key
  | .ins k _ => k
  | .del k => k

/-- Abstract map from keys to values. -/
abbrev Map := Key → Option Bytes

/-- Effect of an operation on the abstract map. -/
def Op.apply (m : Map) : Op → Map
  | .ins k v => fun k' => if k' = k then some v else m k'
  | .del k => fun k' => if k' = k then none else m k'

/-- The abstract map after a history. -/
def specMap (ops : List Op) : Map := ops.foldl Op.apply (fun _ => none)

end Verif.Mpt
