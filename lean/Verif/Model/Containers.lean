import Verif.Model.Basic
/-
Standard library containers used by the code, as lists.
-/

namespace Columbus

/-- `std::map<K,V>` with comparator `lt`: the entries in iteration (ascending key) order. -/
abbrev SMap (K V : Type) := List (K × V)

namespace SMap
variable {K V : Type}

/-- `map::find`: the entry whose key is equivalent to `k`, that is, neither key is less than the other. -/
def find (lt : K → K → Bool) (m : SMap K V) (k : K) : Option V :=
  match m with
  | [] => none
  | (k', v) :: r => if !lt k' k && !lt k k' then some v else find lt r k

/-- `m[k] = v`: replace the value of the equivalent key (the stored key object stays) or insert in key order. -/
def set (lt : K → K → Bool) (m : SMap K V) (k : K) (v : V) : SMap K V :=
  match m with
  | [] => [(k, v)]
  | (k', v') :: r =>
    if lt k' k then (k', v') :: set lt r k v
    else if lt k k' then (k, v) :: (k', v') :: r
    else (k', v) :: r

end SMap

/-- `std::unordered_map` / `google::sparse_hash_map`: an association list in insertion order. The iteration order
of the real container is not this one; where the code iterates, the model goes through `Runtime` below. -/
abbrev HMap (K V : Type) := List (K × V)

namespace HMap
variable {K V : Type} [DecidableEq K]

/-- `find`. -/
def find (m : HMap K V) (k : K) : Option V :=
  match m with
  | [] => none
  | (k', v) :: r => if k' = k then some v else find r k

/-- `m[k] = v`. -/
def set (m : HMap K V) (k : K) (v : V) : HMap K V :=
  match m with
  | [] => [(k, v)]
  | (k', v') :: r => if k' = k then (k', v) :: r else (k', v') :: set r k v

end HMap

/-- Insertion into `std::unordered_set`. -/
def hsetInsert {K : Type} [DecidableEq K] (s : List K) (k : K) : List K := if k ∈ s then s else s ++ [k]

/-- `<` on `Nat` keys as a comparator. -/
def ltNat (a b : Nat) : Bool := decide (a < b)

/-- `<` on `Letter` keys: comparison of the wrapped `uint16_t` through the implicit conversion
(include/ColumbusCore.hh.in 98-100). -/
def ltLetter (a b : Letter) : Bool := decide (a.toNat < b.toNat)

/-- `std::pair`'s `operator<`: lexicographic. -/
def ltPair {A B : Type} (la : A → A → Bool) (lb : B → B → Bool) (x y : A × B) : Bool :=
  la x.1 y.1 || (!la y.1 x.1 && lb x.2 y.2)

end Columbus
